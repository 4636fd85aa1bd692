import Verif.Props.Rank
import Mathlib.Data.List.Nodup

/-! # C33, C34: `Paths` -/

namespace Causets

open Heap

variable {h : Heap}

/-! ## the recursion without the link memory -/

/-- the loop of `Paths_find` without memory effects -/
def ploop (f : EId → ℤ → ℤ → PathsOut) : List EId → ℤ → ℤ → PathsOut
  | [], mn, mx => ([], mn, mx)
  | e :: es, mn, mx =>
    ((f e mn mx).1 ++ (ploop f es (f e mn mx).2.1 (f e mn mx).2.2).1,
      (ploop f es (f e mn mx).2.1 (f e mn mx).2.2).2)

/-- `Paths_find` without memory effects -/
def pfind (it : Iter) (h : Heap) (b : EId) (bL : Finset EId) (fm fx : Bool) :
    ℕ → List EId → EId → ℤ → ℤ → ℤ → PathsOut
  | 0, _, _, _, mn, mx => ([], mn, mx)
  | fuel + 1, path, a, l, mn, mx =>
    let aL := h.futureLinks a ∩ h.past b
    let per := aL ∩ bL
    let int := aL \ per
    let here := decide (mn ≤ l) && decide (per.card > 0) && (!fx || decide (int.card = 0))
    let ys := if here then (it.ord (0 :: path) per).map (fun e => path ++ [e, b]) else []
    if here && fm then (ys, mn, if l ≤ mx ∨ mx = -1 then l else mx)
    else
      let mn' := if fx then max mn l else mn
      if l = mx then (ys, mn', mx)
      else
        let r := ploop (fun e mn mx => pfind it h b bL fm fx fuel (path ++ [e]) e (l + 1) mn mx)
          (it.ord (1 :: path) int) mn' mx
        (ys ++ r.1, r.2)

theorem pathsLoop_answers (f : EId → ℤ → ℤ → StateM Heap (Except Err PathsOut)) (g : EId → ℤ → ℤ → PathsOut) :
    ∀ (L : List EId) (mn mx : ℤ), (∀ e ∈ L, ∀ mn mx, h.Answers (f e mn mx) (.ok (g e mn mx))) →
    h.Answers (pathsLoop f L mn mx) (.ok (ploop g L mn mx)) := by
  intro L
  induction L with
  | nil => intro _ _ _; exact Answers.pure
  | cons e es ih =>
    intro mn mx hL
    unfold pathsLoop ploop
    refine Answers.bind (hL e (by simp) mn mx) ?_
    refine Answers.bind (ih _ _ fun x hx => hL x (by simp [hx])) ?_
    exact Answers.pure

theorem pathsFind_answers (it : Iter) (v : h.Valid) (b : EId) (bL : Finset EId) (fm fx : Bool) :
    ∀ (fuel : ℕ) (path : List EId) (a : EId) (l mn mx : ℤ), (h.future a ∩ h.past b).card < fuel →
    h.Answers (pathsFind it b bL fm fx fuel path a l mn mx) (.ok (pfind it h b bL fm fx fuel path a l mn mx)) := by
  intro fuel
  induction fuel with
  | zero => intro path a l mn mx h0; omega
  | succ fuel ih =>
    intro path a l mn mx hf
    unfold pathsFind pfind
    refine Answers.bind (linkFuture_answers v a) ?_
    refine AnswersWith.bind AnswersWith.get fun h1 so => ?_
    have hp : h1.past b = h.past b := by simp only [Heap.past, so.prec]
    rw [hp]
    dsimp only
    split
    · exact Answers.pure
    · split
      · exact Answers.pure
      · refine Answers.bind (pathsLoop_answers _ (fun e mn mx => pfind it h b bL fm fx fuel (path ++ [e]) e (l + 1) mn mx)
          _ _ _ fun e he mn mx => ih _ _ _ _ _ ?_) ?_
        · rw [it.mem] at he
          have he' := (Finset.mem_sdiff.1 he).1
          rw [Finset.mem_inter, mem_futureLinks v, v.past_eq] at he'
          have : (h.future e ∩ h.past b).card < (h.future a ∩ h.past b).card := by
            refine Finset.card_lt_card ⟨fun z hz => ?_, fun hc => ?_⟩
            · rw [Finset.mem_inter, v.future_eq, v.past_eq] at hz ⊢
              exact ⟨v.trans he'.1.1 hz.1, hz.2⟩
            · have hx : e ∈ h.future a ∩ h.past b := by
                rw [Finset.mem_inter, v.future_eq, v.past_eq]
                exact ⟨he'.1.1, he'.2⟩
              have := hc hx
              rw [Finset.mem_inter, v.future_eq] at this
              exact v.irrefl _ this.1
          omega
        · exact Answers.pure

/-! ## extensions of a partial path -/

/-- `q` continues `path` (ending in `a`) to `b` by at least two more links -/
def Ext (h : Heap) (b : EId) (path : List EId) (a : EId) (q : List EId) : Prop :=
  ∃ t, q = path ++ t ∧ LinkPath h.Lt a b (a :: t) ∧ 2 ≤ t.length

theorem Ext.length {b : EId} {path : List EId} {a : EId} {q : List EId} (hq : Ext h b path a q) :
    path.length + 2 ≤ q.length := by
  obtain ⟨t, rfl, -, ht⟩ := hq
  rw [List.length_append]; omega

theorem LinkPath.cons {lt : ℕ → ℕ → Prop} {a b e : ℕ} {t : List ℕ} :
    LinkPath lt a b (a :: e :: t) ↔ Covers lt a e ∧ LinkPath lt e b (e :: t) := by
  unfold LinkPath
  rw [List.isChain_cons_cons]
  simp only [List.head?_cons, List.getLast?_cons_cons, true_and]
  tauto

theorem LinkPath.le {lt : ℕ → ℕ → Prop} (o : StrictOrd lt) {a b : ℕ} {p : List ℕ} (hp : LinkPath lt a b p) :
    a = b ∨ lt a b := by
  have hl : p.length = (p.length - 1) + 1 := by
    cases p with
    | nil => simp [LinkPath] at hp
    | cons x p => simp
  exact Steps.le o _ a b ((steps_iff_linkPath _ a b).2 ⟨p, hp, hl⟩)

theorem LinkPath.of_covers (v : h.Valid) {e b : EId} (heb : Covers h.Lt e b) {t : List EId}
    (hp : LinkPath h.Lt e b (e :: t)) : t = [b] := by
  match t, hp with
  | [], hp =>
    have : e = b := by simpa [LinkPath] using hp.2.1
    exact absurd this (v.ne heb.1)
  | x :: t, hp =>
    rw [LinkPath.cons] at hp
    rcases hp.2.le v.order with rfl | h1
    · match t, hp.2 with
      | [], _ => rfl
      | y :: t, h2 =>
        rw [LinkPath.cons] at h2
        rcases h2.2.le v.order with rfl | h3
        · exact absurd h2.1.1 (v.irrefl _)
        · exact absurd h3 (v.asymm h2.1.1)
    · exact absurd ⟨hp.1.1, h1⟩ (heb.2 x)

/-- continuing through an event linked to `b`, or through another one -/
theorem Ext.decompose (v : h.Valid) (b : EId) (path : List EId) (a : EId) (q : List EId) :
    Ext h b path a q ↔ (∃ e, (Covers h.Lt a e ∧ Covers h.Lt e b) ∧ q = path ++ [e, b]) ∨
      (∃ e, (Covers h.Lt a e ∧ h.Lt e b ∧ ¬ Covers h.Lt e b) ∧ Ext h b (path ++ [e]) e q) := by
  constructor
  · rintro ⟨t, rfl, ht, h2⟩
    match t, ht, h2 with
    | e :: y :: t, ht, _ =>
      rw [LinkPath.cons] at ht
      by_cases heb : Covers h.Lt e b
      · have := LinkPath.of_covers v heb ht.2
        rw [this]
        exact Or.inl ⟨e, ⟨ht.1, heb⟩, rfl⟩
      · right
        have hlt : h.Lt e b := by
          rcases ht.2.le v.order with rfl | h3
          · have h4 := (LinkPath.cons.1 ht.2).1.1
            have h5 := ((LinkPath.cons.1 ht.2).2.le v.order)
            rcases h5 with rfl | h5
            · exact absurd h4 (v.irrefl _)
            · exact absurd h5 (v.asymm h4)
          · exact h3
        refine ⟨e, ⟨ht.1, hlt, heb⟩, y :: t, by simp, ht.2, ?_⟩
        cases t with
        | nil =>
          have h4 := (LinkPath.cons.1 ht.2)
          have : y = b := by simpa [LinkPath] using h4.2.2.1
          subst this
          exact absurd h4.1 heb
        | cons z t => simp
  · rintro (⟨e, ⟨h1, h2⟩, rfl⟩ | ⟨e, ⟨h1, h2, h3⟩, t, rfl, ht, h4⟩)
    · refine ⟨[e, b], rfl, LinkPath.cons.2 ⟨h1, LinkPath.cons.2 ⟨h2, ?_⟩⟩, by simp⟩
      exact ⟨rfl, rfl, List.isChain_singleton b⟩
    · exact ⟨e :: t, by simp, LinkPath.cons.2 ⟨h1, ht⟩, by simp; omega⟩

theorem Ext.nonempty (v : h.Valid) (b : EId) (path : List EId) (a : EId) (hab : h.Lt a b) (hc : ¬ Covers h.Lt a b) :
    ∃ q, Ext h b path a q := by
  obtain ⟨m, hm⟩ := exists_steps v _ a b le_rfl hab
  obtain ⟨p, hp, hl⟩ := (steps_iff_linkPath m a b).1 hm
  match p, hp, hl with
  | [], hp, _ => simp [LinkPath] at hp
  | [x], hp, _ =>
    have h1 : x = a := by simpa [LinkPath] using hp.1
    have h2 : x = b := by simpa [LinkPath] using hp.2.1
    exact absurd (h1.symm.trans h2) (v.ne hab)
  | [x, y], hp, _ =>
    have h1 : x = a := by simpa [LinkPath] using hp.1
    subst h1
    have h2 : y = b := by simpa [LinkPath] using hp.2.1
    subst h2
    exact absurd (LinkPath.cons.1 hp).1 hc
  | x :: y :: z :: t, hp, _ =>
    have h1 : x = a := by simpa [LinkPath] using hp.1
    subst h1
    exact ⟨_, y :: z :: t, rfl, hp, by simp⟩

theorem Ext.at {b : EId} {path : List EId} {e : EId} {q : List EId} (hq : Ext h b (path ++ [e]) e q) :
    q[path.length]? = some e := by
  obtain ⟨t, rfl, -, -⟩ := hq
  simp

/-- what the two sets of `Paths_find` are -/
theorem mem_perimetral (v : h.Valid) {a0 a b : EId} (h0 : a0 = a ∨ h.Lt a0 a) (e : EId) :
    e ∈ h.futureLinks a ∩ h.past b ∩ (h.future a0 ∩ h.pastLinks b) ↔ Covers h.Lt a e ∧ Covers h.Lt e b := by
  simp only [Finset.mem_inter, mem_futureLinks v, v.past_eq, v.future_eq, mem_pastLinks v]
  constructor
  · rintro ⟨⟨h1, _⟩, _, h2⟩; exact ⟨h1, h2⟩
  · rintro ⟨h1, h2⟩
    refine ⟨⟨h1, h2.1⟩, ?_, h2⟩
    rcases h0 with rfl | h0
    · exact h1.1
    · exact v.trans h0 h1.1

theorem mem_internal (v : h.Valid) {a0 a b : EId} (h0 : a0 = a ∨ h.Lt a0 a) (e : EId) :
    e ∈ (h.futureLinks a ∩ h.past b) \ (h.futureLinks a ∩ h.past b ∩ (h.future a0 ∩ h.pastLinks b)) ↔
      Covers h.Lt a e ∧ h.Lt e b ∧ ¬ Covers h.Lt e b := by
  rw [Finset.mem_sdiff, mem_perimetral v h0, Finset.mem_inter, mem_futureLinks v, v.past_eq]
  tauto

/-! ## what the recursion yields in general -/

theorem ploop_nodup (f : EId → ℤ → ℤ → PathsOut) (E : EId → List EId → Prop) (k : ℕ)
    (hE : ∀ e q, E e q → q[k]? = some e) : ∀ (L : List EId) (mn mx : ℤ), L.Nodup →
    (∀ e ∈ L, ∀ mn mx, (f e mn mx).1.Nodup ∧ ∀ q ∈ (f e mn mx).1, E e q) →
    (ploop f L mn mx).1.Nodup ∧ ∀ q ∈ (ploop f L mn mx).1, ∃ e ∈ L, E e q := by
  intro L
  induction L with
  | nil => intro mn mx _ _; simp [ploop]
  | cons e es ih =>
    intro mn mx hn hL
    have hn' := List.nodup_cons.1 hn
    obtain ⟨h1, h2⟩ := hL e (by simp) mn mx
    obtain ⟨h3, h4⟩ := ih (f e mn mx).2.1 (f e mn mx).2.2 hn'.2 fun x hx => hL x (by simp [hx])
    unfold ploop
    refine ⟨List.nodup_append.2 ⟨h1, h3, ?_⟩, ?_⟩
    · rintro q hq q' hq' rfl
      obtain ⟨x, hx, hx'⟩ := h4 q hq'
      have e1 := hE e q (h2 q hq)
      have e2 := hE x q hx'
      rw [e1] at e2
      rw [Option.some.injEq] at e2
      exact hn'.1 (e2 ▸ hx)
    · intro q hq
      rcases List.mem_append.1 hq with hq | hq
      · exact ⟨e, by simp, h2 q hq⟩
      · obtain ⟨x, hx, hx'⟩ := h4 q hq
        exact ⟨x, by simp [hx], hx'⟩

/-- everything yielded is a path continuing the given one, and no path is yielded twice -/
theorem pfind_sound (it : Iter) (v : h.Valid) (b a0 : EId) (fm fx : Bool) :
    ∀ (fuel : ℕ) (path : List EId) (a : EId) (l mn mx : ℤ), (a0 = a ∨ h.Lt a0 a) →
    let r := pfind it h b (h.future a0 ∩ h.pastLinks b) fm fx fuel path a l mn mx
    r.1.Nodup ∧ ∀ q ∈ r.1, Ext h b path a q := by
  intro fuel
  induction fuel with
  | zero => intro path a l mn mx _; simp [pfind]
  | succ fuel ih =>
    intro path a l mn mx h0
    unfold pfind
    set per := h.futureLinks a ∩ h.past b ∩ (h.future a0 ∩ h.pastLinks b) with hper
    set here := decide (mn ≤ l) && decide (per.card > 0) &&
      (!fx || decide (((h.futureLinks a ∩ h.past b) \ per).card = 0)) with hhere
    have hys : (if here = true then (it.ord (0 :: path) per).map (fun e => path ++ [e, b]) else []).Nodup ∧
        ∀ q ∈ (if here = true then (it.ord (0 :: path) per).map (fun e => path ++ [e, b]) else []),
          ∃ e, (Covers h.Lt a e ∧ Covers h.Lt e b) ∧ q = path ++ [e, b] := by
      split
      · refine ⟨(it.nodup _ _).map fun x y hxy => by simpa using hxy, ?_⟩
        intro q hq
        obtain ⟨e, he, rfl⟩ := List.mem_map.1 hq
        rw [it.mem, mem_perimetral v h0] at he
        exact ⟨e, he, rfl⟩
      · simp
    dsimp only
    have hsound : ∀ q, (∃ e, (Covers h.Lt a e ∧ Covers h.Lt e b) ∧ q = path ++ [e, b]) → Ext h b path a q :=
      fun q hq => (Ext.decompose v b path a q).2 (Or.inl hq)
    split
    · exact ⟨hys.1, fun q hq => hsound q (hys.2 q hq)⟩
    · split
      · exact ⟨hys.1, fun q hq => hsound q (hys.2 q hq)⟩
      · obtain ⟨h1, h2⟩ := ploop_nodup
          (fun e mn mx => pfind it h b (h.future a0 ∩ h.pastLinks b) fm fx fuel (path ++ [e]) e (l + 1) mn mx)
          (fun e q => Ext h b (path ++ [e]) e q ∧ (Covers h.Lt a e ∧ h.Lt e b ∧ ¬ Covers h.Lt e b)) path.length
          (fun e q hq => hq.1.at) (it.ord (1 :: path) ((h.futureLinks a ∩ h.past b) \ per))
          (if fx = true then max mn l else mn) mx (it.nodup _ _) (by
            intro e he mn mx
            rw [it.mem, mem_internal v h0] at he
            have := ih (path ++ [e]) e (l + 1) mn mx (by
              right
              rcases h0 with rfl | h0
              · exact he.1.1
              · exact v.trans h0 he.1.1)
            exact ⟨this.1, fun q hq => ⟨this.2 q hq, he⟩⟩)
        refine ⟨List.nodup_append.2 ⟨hys.1, h1, ?_⟩, ?_⟩
        · rintro q hq q' hq' rfl
          obtain ⟨e, he, rfl⟩ := hys.2 q hq
          obtain ⟨x, hx, hx', hx''⟩ := h2 _ hq'
          have := hx'.at
          rw [List.getElem?_append_right (le_refl _)] at this
          simp only [Nat.sub_self, List.getElem?_cons_zero, Option.some.injEq] at this
          subst this
          exact hx''.2.2 he.2
        · intro q hq
          rcases List.mem_append.1 hq with hq | hq
          · exact hsound q (hys.2 q hq)
          · obtain ⟨x, hx, hx', hx''⟩ := h2 _ hq
            exact (Ext.decompose v b path a q).2 (Or.inr ⟨x, hx'', hx'⟩)

/-- the measure of the recursion decreases -/
theorem between_lt (v : h.Valid) {a e b : EId} (hae : h.Lt a e) (heb : h.Lt e b) :
    (h.future e ∩ h.past b).card < (h.future a ∩ h.past b).card := by
  refine Finset.card_lt_card ⟨fun z hz => ?_, fun hc => ?_⟩
  · rw [Finset.mem_inter, v.future_eq, v.past_eq] at hz ⊢
    exact ⟨v.trans hae hz.1, hz.2⟩
  · have hx : e ∈ h.future a ∩ h.past b := by
      rw [Finset.mem_inter, v.future_eq, v.past_eq]
      exact ⟨hae, heb⟩
    have := hc hx
    rw [Finset.mem_inter, v.future_eq] at this
    exact v.irrefl _ this.1

/-! ## paths of any length or in a range -/

theorem ploop_any (f : EId → ℤ → ℤ → PathsOut) (mn mx : ℤ) : ∀ (L : List EId),
    (∀ e ∈ L, (f e mn mx).2 = (mn, mx)) →
    (ploop f L mn mx).2 = (mn, mx) ∧ ∀ q, q ∈ (ploop f L mn mx).1 ↔ ∃ e ∈ L, q ∈ (f e mn mx).1 := by
  intro L
  induction L with
  | nil => intro _; simp [ploop]
  | cons e es ih =>
    intro hL
    have h1 := hL e (by simp)
    have h2 := ih fun x hx => hL x (by simp [hx])
    unfold ploop
    rw [h1]
    refine ⟨h2.1, fun q => ?_⟩
    simp only [List.mem_append, List.mem_cons, exists_eq_or_imp, h2.2]

theorem pfind_any (it : Iter) (v : h.Valid) (b a0 : EId) :
    ∀ (fuel : ℕ) (path : List EId) (a : EId) (l mn mx : ℤ), (a0 = a ∨ h.Lt a0 a) →
    (h.future a ∩ h.past b).card < fuel → l = path.length + 2 → (mx = -1 ∨ l ≤ mx) →
    let r := pfind it h b (h.future a0 ∩ h.pastLinks b) false false fuel path a l mn mx
    r.2 = (mn, mx) ∧ ∀ q, q ∈ r.1 ↔ Ext h b path a q ∧ mn ≤ q.length ∧ (mx = -1 ∨ (q.length : ℤ) ≤ mx) := by
  intro fuel
  induction fuel with
  | zero => intro path a l mn mx _ hf; omega
  | succ fuel ih =>
    intro path a l mn mx h0 hf hl hmx
    unfold pfind
    set per := h.futureLinks a ∩ h.past b ∩ (h.future a0 ∩ h.pastLinks b) with hper
    simp only [Bool.not_false, Bool.true_or, Bool.and_true, Bool.and_false, Bool.false_eq_true, if_false]
    have hys : ∀ q, q ∈ (if (decide (mn ≤ l) && decide (per.card > 0)) = true then
          (it.ord (0 :: path) per).map (fun e => path ++ [e, b]) else []) ↔
        mn ≤ l ∧ ∃ e, (Covers h.Lt a e ∧ Covers h.Lt e b) ∧ q = path ++ [e, b] := by
      intro q
      have hm : (∃ e, (Covers h.Lt a e ∧ Covers h.Lt e b) ∧ q = path ++ [e, b]) ↔ ∃ e ∈ per, q = path ++ [e, b] := by
        refine exists_congr fun e => and_congr_left fun _ => (mem_perimetral v h0 e).symm
      rw [hm]
      split
      · next hc =>
        simp only [Bool.and_eq_true, decide_eq_true_eq] at hc
        simp only [List.mem_map, it.mem, hc.1, true_and]
        exact exists_congr fun e => and_congr_right fun _ => eq_comm
      · next hc =>
        simp only [Bool.and_eq_true, decide_eq_true_eq, not_and, gt_iff_lt, not_lt, Nat.le_zero,
          Finset.card_eq_zero] at hc
        simp only [List.not_mem_nil, false_iff, not_and, not_exists]
        intro h1 e he
        rw [hc h1] at he; simp at he
    by_cases hlm : l = mx
    · rw [if_pos hlm]
      refine ⟨rfl, fun q => ?_⟩
      rw [hys, Ext.decompose v]
      constructor
      · rintro ⟨h1, e, he, rfl⟩
        refine ⟨Or.inl ⟨e, he, rfl⟩, ?_⟩
        simp only [List.length_append, List.length_cons, List.length_nil]
        push_cast
        omega
      · rintro ⟨⟨e, he, rfl⟩ | ⟨e, he, hq⟩, h1, h2⟩
        · simp only [List.length_append, List.length_cons, List.length_nil] at h1
          push_cast at h1
          exact ⟨by omega, e, he, rfl⟩
        · have h3 := hq.length
          simp only [List.length_append, List.length_cons, List.length_nil] at h3
          omega
    · rw [if_neg hlm]
      have hrec : ∀ e ∈ it.ord (1 :: path) ((h.futureLinks a ∩ h.past b) \ per), ∀ mn mx : ℤ, (mx = -1 ∨ l + 1 ≤ mx) →
          (pfind it h b (h.future a0 ∩ h.pastLinks b) false false fuel (path ++ [e]) e (l + 1) mn mx).2 = (mn, mx) ∧
          ∀ q, q ∈ (pfind it h b (h.future a0 ∩ h.pastLinks b) false false fuel (path ++ [e]) e (l + 1) mn mx).1 ↔
            Ext h b (path ++ [e]) e q ∧ mn ≤ q.length ∧ (mx = -1 ∨ (q.length : ℤ) ≤ mx) := by
        intro e he mn mx hm
        rw [it.mem, mem_internal v h0] at he
        refine ih (path ++ [e]) e (l + 1) mn mx ?_ ?_ ?_ hm
        · right
          rcases h0 with rfl | h0
          · exact he.1.1
          · exact v.trans h0 he.1.1
        · have := between_lt v he.1.1 he.2.1
          omega
        · simp only [List.length_append, List.length_cons, List.length_nil]
          push_cast; omega
      have hm' : mx = -1 ∨ l + 1 ≤ mx := by omega
      obtain ⟨h1, h2⟩ := ploop_any
        (fun e mn mx => pfind it h b (h.future a0 ∩ h.pastLinks b) false false fuel (path ++ [e]) e (l + 1) mn mx)
        mn mx (it.ord (1 :: path) ((h.futureLinks a ∩ h.past b) \ per)) fun e he => (hrec e he mn mx hm').1
      refine ⟨h1, fun q => ?_⟩
      rw [List.mem_append, hys, h2, Ext.decompose v]
      constructor
      · rintro (⟨h3, e, he, rfl⟩ | ⟨e, he, hq⟩)
        · refine ⟨Or.inl ⟨e, he, rfl⟩, ?_⟩
          simp only [List.length_append, List.length_cons, List.length_nil]
          push_cast
          omega
        · have := ((hrec e he mn mx hm').2 q).1 hq
          rw [it.mem, mem_internal v h0] at he
          exact ⟨Or.inr ⟨e, he, this.1⟩, this.2⟩
      · rintro ⟨⟨e, he, rfl⟩ | ⟨e, he, hq⟩, h4, h5⟩
        · left
          simp only [List.length_append, List.length_cons, List.length_nil] at h4
          push_cast at h4
          exact ⟨by omega, e, he, rfl⟩
        · right
          have he' : e ∈ it.ord (1 :: path) ((h.futureLinks a ∩ h.past b) \ per) := by
            rw [it.mem, mem_internal v h0]; exact he
          exact ⟨e, he', ((hrec e he' mn mx hm').2 q).2 ⟨hq, h4, h5⟩⟩

/-! ## shortest paths -/

/-- how a run in the mode 'min' over the set `E` of candidates changes `max_len` (`-1`: no bound yet) -/
structure MinRun (E : List EId → Prop) (ps : List (List EId)) (l mx mx' : ℤ) : Prop where
  keep : mx ≠ -1 → mx' ≤ mx ∧ mx' ≠ -1
  none : mx' = -1 → ∀ q, ¬ E q
  lower : ∀ q, E q → mx' ≤ q.length
  found : ∀ q, E q → (q.length : ℤ) = mx' → q ∈ ps
  attained : mx' = mx ∨ ∃ q, E q ∧ (q.length : ℤ) = mx'
  level : mx' = -1 ∨ l ≤ mx'

theorem ploop_min (f : EId → ℤ → ℤ → PathsOut) (E : EId → List EId → Prop) (mn l : ℤ) : ∀ (L : List EId) (mx : ℤ),
    (mx = -1 ∨ l ≤ mx) →
    (∀ e ∈ L, ∀ mx, (mx = -1 ∨ l ≤ mx) → (f e mn mx).2.1 = mn ∧ MinRun (E e) (f e mn mx).1 l mx (f e mn mx).2.2) →
    (ploop f L mn mx).2.1 = mn ∧
      MinRun (fun q => ∃ e ∈ L, E e q) (ploop f L mn mx).1 l mx (ploop f L mn mx).2.2 := by
  intro L
  induction L with
  | nil =>
    intro mx hm _
    refine ⟨rfl, ⟨fun h1 => ⟨le_refl mx, h1⟩, ?_, ?_, ?_, Or.inl rfl, hm⟩⟩
    · rintro _ q ⟨e, he, _⟩; simp at he
    · rintro q ⟨e, he, _⟩; simp at he
    · rintro q ⟨e, he, _⟩; simp at he
  | cons e es ih =>
    intro mx hm hL
    obtain ⟨h1, h2⟩ := hL e (by simp) mx hm
    have h3 := ih (f e mn mx).2.2 h2.level fun x hx => hL x (by simp [hx])
    unfold ploop
    rw [h1]
    refine ⟨h3.1, ?_⟩
    replace h3 := h3.2
    constructor
    · intro h4
      have h5 := h2.keep h4
      have h6 := h3.keep h5.2
      exact ⟨h6.1.trans h5.1, h6.2⟩
    · rintro h4 q ⟨x, hx, hq⟩
      by_cases h5 : (f e mn mx).2.2 = -1
      · rcases List.mem_cons.1 hx with rfl | hx
        · exact h2.none h5 q hq
        · exact h3.none h4 q ⟨x, hx, hq⟩
      · exact (h3.keep h5).2 h4
    · rintro q ⟨x, hx, hq⟩
      rcases List.mem_cons.1 hx with rfl | hx
      · have h4 := h2.lower q hq
        by_cases h5 : (f x mn mx).2.2 = -1
        · exact absurd hq (h2.none h5 q)
        · exact (h3.keep h5).1.trans h4
      · exact h3.lower q ⟨x, hx, hq⟩
    · rintro q ⟨x, hx, hq⟩ hl
      rw [List.mem_append]
      rcases List.mem_cons.1 hx with rfl | hx
      · left
        have h4 := h2.lower q hq
        by_cases h5 : (f x mn mx).2.2 = -1
        · exact absurd hq (h2.none h5 q)
        · have h6 := (h3.keep h5).1
          exact h2.found q hq (le_antisymm (hl.le.trans h6) h4)
      · exact Or.inr (h3.found q ⟨x, hx, hq⟩ hl)
    · rcases h3.attained with h4 | ⟨q, ⟨x, hx, hq⟩, h4⟩
      · rcases h2.attained with h5 | ⟨q, hq, h5⟩
        · exact Or.inl (h4.trans h5)
        · exact Or.inr ⟨q, ⟨e, by simp, hq⟩, h5.trans h4.symm⟩
      · exact Or.inr ⟨q, ⟨x, by simp [hx], hq⟩, h4⟩
    · exact h3.level

theorem pfind_min (it : Iter) (v : h.Valid) (b a0 : EId) (mn : ℤ) (hmn : mn ≤ 0) :
    ∀ (fuel : ℕ) (path : List EId) (a : EId) (l mx : ℤ), (a0 = a ∨ h.Lt a0 a) →
    (h.future a ∩ h.past b).card < fuel → l = path.length + 2 → (mx = -1 ∨ l ≤ mx) →
    let r := pfind it h b (h.future a0 ∩ h.pastLinks b) true false fuel path a l mn mx
    r.2.1 = mn ∧ MinRun (Ext h b path a) r.1 l mx r.2.2 := by
  intro fuel
  induction fuel with
  | zero => intro path a l mx _ hf; omega
  | succ fuel ih =>
    intro path a l mx h0 hf hl hmx
    unfold pfind
    dsimp only
    set per := h.futureLinks a ∩ h.past b ∩ (h.future a0 ∩ h.pastLinks b) with hper
    have hmnl : mn ≤ l := by omega
    simp only [hmnl, decide_true, Bool.true_and, Bool.not_false, Bool.true_or, Bool.and_true, Bool.false_eq_true,
      if_false]
    by_cases hp : per.card > 0
    · simp only [hp, decide_true, if_true]
      refine ⟨trivial, ?_⟩
      have : (if l ≤ mx ∨ mx = -1 then l else mx) = l := by
        rw [if_pos (by tauto)]
      rw [this]
      have hlow : ∀ q, Ext h b path a q → l ≤ q.length := fun q hq => by
        have := hq.length; omega
      constructor
      · intro h1
        exact ⟨by omega, by omega⟩
      · intro h1; omega
      · exact hlow
      · intro q hq hql
        rw [Ext.decompose v] at hq
        rcases hq with ⟨e, he, rfl⟩ | ⟨e, he, hq⟩
        · rw [List.mem_map]
          exact ⟨e, by rw [it.mem, mem_perimetral v h0]; exact he, rfl⟩
        · have h3 := hq.length
          simp only [List.length_append, List.length_cons, List.length_nil] at h3
          omega
      · right
        obtain ⟨e, he⟩ := Finset.card_pos.1 hp
        rw [mem_perimetral v h0] at he
        refine ⟨path ++ [e, b], (Ext.decompose v _ _ _ _).2 (Or.inl ⟨e, he, rfl⟩), ?_⟩
        simp only [List.length_append, List.length_cons, List.length_nil]
        push_cast; omega
      · exact Or.inr le_rfl
    · have hp' : per = ∅ := by rw [gt_iff_lt, Finset.card_pos, Finset.not_nonempty_iff_eq_empty] at hp; exact hp
      simp only [hp, decide_false, Bool.false_eq_true, if_false, List.nil_append]
      have hlong : ∀ q, Ext h b path a q ↔ ∃ e ∈ it.ord (1 :: path) ((h.futureLinks a ∩ h.past b) \ per),
          Ext h b (path ++ [e]) e q := by
        intro q
        rw [Ext.decompose v]
        constructor
        · rintro (⟨e, he, rfl⟩ | ⟨e, he, hq⟩)
          · rw [← mem_perimetral v h0, ← hper, hp'] at he; simp at he
          · exact ⟨e, by rw [it.mem, mem_internal v h0]; exact he, hq⟩
        · rintro ⟨e, he, hq⟩
          rw [it.mem, mem_internal v h0] at he
          exact Or.inr ⟨e, he, hq⟩
      have hlow : ∀ q, Ext h b path a q → l + 1 ≤ q.length := fun q hq => by
        obtain ⟨e, he, hq⟩ := (hlong q).1 hq
        have h3 := hq.length
        simp only [List.length_append, List.length_cons, List.length_nil] at h3
        omega
      by_cases hlm : l = mx
      · rw [if_pos hlm]
        refine ⟨rfl, ⟨fun h1 => ⟨le_refl mx, h1⟩, fun h1 => ?_, fun q hq => ?_, fun q hq hql => ?_, Or.inl rfl, by omega⟩⟩
        · simp only at h1; omega
        · have := hlow q hq; simp only; omega
        · have := hlow q hq; simp only at hql; omega
      · rw [if_neg hlm]
        obtain ⟨h1, h2⟩ := ploop_min
          (fun e mn mx => pfind it h b (h.future a0 ∩ h.pastLinks b) true false fuel (path ++ [e]) e (l + 1) mn mx)
          (fun e => Ext h b (path ++ [e]) e) mn (l + 1) (it.ord (1 :: path) ((h.futureLinks a ∩ h.past b) \ per)) mx
          (by omega) (by
            intro e he mx hm
            rw [it.mem, mem_internal v h0] at he
            refine ih (path ++ [e]) e (l + 1) mx ?_ ?_ ?_ hm
            · right
              rcases h0 with rfl | h0
              · exact he.1.1
              · exact v.trans h0 he.1.1
            · have := between_lt v he.1.1 he.2.1
              omega
            · simp only [List.length_append, List.length_cons, List.length_nil]
              push_cast; omega)
        refine ⟨h1, ⟨h2.keep, fun h3 q hq => h2.none h3 q ((hlong q).1 hq), fun q hq => h2.lower q ((hlong q).1 hq),
          fun q hq => h2.found q ((hlong q).1 hq), ?_, ?_⟩⟩
        · rcases h2.attained with h3 | ⟨q, hq, h3⟩
          · exact Or.inl h3
          · exact Or.inr ⟨q, (hlong q).2 hq, h3⟩
        · rcases h2.level with h3 | h3
          · exact Or.inl h3
          · refine Or.inr ?_
            dsimp only at h3 ⊢
            omega

/-! ## longest paths -/

/-- how a run in the mode 'max' over the set `E` of candidates changes `min_len` -/
structure MaxRun (E : List EId → Prop) (ps : List (List EId)) (mn mn' : ℤ) : Prop where
  keep : mn ≤ mn'
  upper : ∀ q, E q → (q.length : ℤ) ≤ mn'
  found : ∀ q, E q → (q.length : ℤ) = mn' → q ∈ ps
  attained : mn' = mn ∨ ∃ q, E q ∧ (q.length : ℤ) = mn'

theorem ploop_max (f : EId → ℤ → ℤ → PathsOut) (E : EId → List EId → Prop) (mx : ℤ) : ∀ (L : List EId) (mn : ℤ),
    (∀ e ∈ L, ∀ mn, (f e mn mx).2.2 = mx ∧ MaxRun (E e) (f e mn mx).1 mn (f e mn mx).2.1) →
    (ploop f L mn mx).2.2 = mx ∧ MaxRun (fun q => ∃ e ∈ L, E e q) (ploop f L mn mx).1 mn (ploop f L mn mx).2.1 := by
  intro L
  induction L with
  | nil =>
    intro mn _
    refine ⟨rfl, ⟨le_refl mn, ?_, ?_, Or.inl rfl⟩⟩
    · rintro q ⟨e, he, _⟩; simp at he
    · rintro q ⟨e, he, _⟩; simp at he
  | cons e es ih =>
    intro mn hL
    obtain ⟨h1, h2⟩ := hL e (by simp) mn
    have h3 := ih (f e mn mx).2.1 fun x hx => hL x (by simp [hx])
    unfold ploop
    rw [h1]
    refine ⟨h3.1, ?_⟩
    replace h3 := h3.2
    constructor
    · exact h2.keep.trans h3.keep
    · rintro q ⟨x, hx, hq⟩
      rcases List.mem_cons.1 hx with rfl | hx
      · exact (h2.upper q hq).trans h3.keep
      · exact h3.upper q ⟨x, hx, hq⟩
    · rintro q ⟨x, hx, hq⟩ hl
      rw [List.mem_append]
      rcases List.mem_cons.1 hx with rfl | hx
      · left
        exact h2.found q hq (le_antisymm (h2.upper q hq) (h3.keep.trans hl.ge))
      · exact Or.inr (h3.found q ⟨x, hx, hq⟩ hl)
    · rcases h3.attained with h4 | ⟨q, ⟨x, hx, hq⟩, h4⟩
      · rcases h2.attained with h5 | ⟨q, hq, h5⟩
        · exact Or.inl (h4.trans h5)
        · exact Or.inr ⟨q, ⟨e, by simp, hq⟩, h5.trans h4.symm⟩
      · exact Or.inr ⟨q, ⟨x, by simp [hx], hq⟩, h4⟩

theorem pfind_max (it : Iter) (v : h.Valid) (b a0 : EId) :
    ∀ (fuel : ℕ) (path : List EId) (a : EId) (l mn : ℤ), (a0 = a ∨ h.Lt a0 a) → h.Lt a b → ¬ Covers h.Lt a b →
    (h.future a ∩ h.past b).card < fuel → l = path.length + 2 →
    let r := pfind it h b (h.future a0 ∩ h.pastLinks b) false true fuel path a l mn (-1)
    r.2.2 = -1 ∧ MaxRun (Ext h b path a) r.1 mn r.2.1 := by
  intro fuel
  induction fuel with
  | zero => intro path a l mn _ _ _ hf; omega
  | succ fuel ih =>
    intro path a l mn h0 hab hnc hf hl
    unfold pfind
    dsimp only
    set per := h.futureLinks a ∩ h.past b ∩ (h.future a0 ∩ h.pastLinks b) with hper
    set int := (h.futureLinks a ∩ h.past b) \ per with hint
    simp only [Bool.and_false, Bool.not_true, Bool.false_or, Bool.false_eq_true, if_false, if_true,
      if_neg (show ¬ l = -1 by omega)]
    obtain ⟨h1, h2⟩ := ploop_max
      (fun e mn mx => pfind it h b (h.future a0 ∩ h.pastLinks b) false true fuel (path ++ [e]) e (l + 1) mn mx)
      (fun e => Ext h b (path ++ [e]) e) (-1) (it.ord (1 :: path) int) (max mn l) (by
        intro e he mn
        rw [it.mem, mem_internal v h0] at he
        refine ih (path ++ [e]) e (l + 1) mn ?_ he.2.1 he.2.2 ?_ ?_
        · right
          rcases h0 with rfl | h0
          · exact he.1.1
          · exact v.trans h0 he.1.1
        · have := between_lt v he.1.1 he.2.1
          omega
        · simp only [List.length_append, List.length_cons, List.length_nil]
          push_cast; omega)
    refine ⟨h1, ?_⟩
    generalize ploop
      (fun e mn mx => pfind it h b (h.future a0 ∩ h.pastLinks b) false true fuel (path ++ [e]) e (l + 1) mn mx)
      (it.ord (1 :: path) int) (max mn l) (-1) = r at h1 h2
    have hll : l ≤ r.2.1 := (le_max_right _ _).trans h2.keep
    have hml : mn ≤ r.2.1 := (le_max_left _ _).trans h2.keep
    have hlen : ∀ e, ((path ++ [e, b]).length : ℤ) = l := by
      intro e
      simp only [List.length_append, List.length_cons, List.length_nil]
      push_cast; omega
    have hmemint : ∀ e, (Covers h.Lt a e ∧ h.Lt e b ∧ ¬ Covers h.Lt e b) → e ∈ it.ord (1 :: path) int := by
      intro e he
      rw [it.mem, hint, mem_internal v h0]; exact he
    -- when there is an internal event the level is exceeded
    have hexc : ∀ e ∈ int, l + 1 ≤ r.2.1 := by
      intro e he
      have he' := he
      rw [hint, mem_internal v h0] at he'
      obtain ⟨q, hq⟩ := Ext.nonempty v b (path ++ [e]) e he'.2.1 he'.2.2
      have h3 := hq.length
      have h4 := h2.upper q ⟨e, hmemint e he', hq⟩
      simp only [List.length_append, List.length_cons, List.length_nil] at h3
      omega
    constructor
    · exact hml
    · intro q hq
      rw [Ext.decompose v] at hq
      rcases hq with ⟨e, he, rfl⟩ | ⟨e, he, hq⟩
      · rw [hlen]; exact hll
      · exact h2.upper q ⟨e, hmemint e he, hq⟩
    · intro q hq hql
      rw [List.mem_append]
      rw [Ext.decompose v] at hq
      rcases hq with ⟨e, he, rfl⟩ | ⟨e, he, hq⟩
      · left
        rw [hlen] at hql
        have hper0 : e ∈ per := by rw [hper, mem_perimetral v h0]; exact he
        have hint0 : int.card = 0 := by
          rw [Finset.card_eq_zero, Finset.eq_empty_iff_forall_notMem]
          intro x hx
          have := hexc x hx
          omega
        have hcond : (decide (mn ≤ l) && decide (per.card > 0) && decide (int.card = 0)) = true := by
          simp only [Bool.and_eq_true, decide_eq_true_eq]
          exact ⟨⟨by omega, Finset.card_pos.2 ⟨e, hper0⟩⟩, hint0⟩
        rw [if_pos hcond, List.mem_map]
        exact ⟨e, by rw [it.mem]; exact hper0, rfl⟩
      · exact Or.inr (h2.found q ⟨e, hmemint e he, hq⟩ hql)
    · rcases h2.attained with h3 | ⟨q, ⟨e, he, hq⟩, h3⟩
      · rw [h3]
        rcases le_total l mn with h4 | h4
        · exact Or.inl (max_eq_left h4)
        · right
          rw [max_eq_right h4] at h3 ⊢
          obtain ⟨q, hq⟩ := Ext.nonempty v b path a hab hnc
          refine ⟨q, hq, ?_⟩
          rw [Ext.decompose v] at hq
          rcases hq with ⟨e, he, rfl⟩ | ⟨e, he, hq⟩
          · exact hlen e
          · have h5 := hexc e (by rw [hint, mem_internal v h0]; exact he)
            omega
      · right
        rw [it.mem, hint, mem_internal v h0] at he
        exact ⟨q, (Ext.decompose v _ _ _ _).2 (Or.inr ⟨e, he, hq⟩), h3⟩

/-! ## the theorems -/

/-- The accepted range of lengths (number of events of the path) of the argument `length`: minimum and maximum, where the maximum `-1`
stands for no bound. -/
def LenArg.range : LenArg → Option (ℤ × ℤ)
  | .str _ => some (0, -1)
  | .int z => some (z, z)
  | .list [] => none
  | .list (x :: xs) => some (x, (x :: xs).getLastD x)
  | .other => none

theorem ext_iff (v : h.Valid) {a b : EId} (hne : a ≠ b) (hnc : ¬ Covers h.Lt a b) (q : List EId) :
    Ext h b [a] a q ↔ LinkPath h.Lt a b q := by
  constructor
  · rintro ⟨t, rfl, ht, -⟩; exact ht
  · intro hq
    match q, hq with
    | [], hp => simp [LinkPath] at hp
    | [x], hp =>
      have h1 : x = a := by simpa [LinkPath] using hp.1
      have h2 : x = b := by simpa [LinkPath] using hp.2.1
      exact absurd (h1.symm.trans h2) hne
    | [x, y], hp =>
      have h1 : x = a := by simpa [LinkPath] using hp.1
      subst h1
      have h2 : y = b := by simpa [LinkPath] using hp.2.1
      subst h2
      exact absurd (LinkPath.cons.1 hp).1 hnc
    | x :: y :: z :: t, hp =>
      have h1 : x = a := by simpa [LinkPath] using hp.1
      subst h1
      exact ⟨y :: z :: t, rfl, hp, by simp⟩

theorem linkPath_self (v : h.Valid) (a : EId) (q : List EId) : LinkPath h.Lt a a q ↔ q = [a] := by
  constructor
  · intro hq
    match q, hq with
    | [], hp => simp [LinkPath] at hp
    | [x], hp =>
      have h1 : x = a := by simpa [LinkPath] using hp.1
      rw [h1]
    | x :: y :: t, hp =>
      have h1 : x = a := by simpa [LinkPath] using hp.1
      subst h1
      have h2 := LinkPath.cons.1 hp
      rcases h2.2.le v.order with rfl | h3
      · exact absurd h2.1.1 (v.irrefl _)
      · exact absurd h3 (v.asymm h2.1.1)
  · rintro rfl
    exact ⟨rfl, rfl, List.isChain_singleton a⟩

theorem linkPath_link (v : h.Valid) {a b : EId} (hc : Covers h.Lt a b) (q : List EId) :
    LinkPath h.Lt a b q ↔ q = [a, b] := by
  constructor
  · intro hq
    match q, hq with
    | [], hp => simp [LinkPath] at hp
    | x :: t, hp =>
      have h1 : x = a := by simpa [LinkPath] using hp.1
      subst h1
      rw [LinkPath.of_covers v hc hp]
  · rintro rfl
    exact LinkPath.cons.2 ⟨hc, rfl, rfl, List.isChain_singleton b⟩

/-- The paths of length in the range. -/
def InRange (h : Heap) (a b : EId) (mn mx : ℤ) (q : List EId) : Prop :=
  LinkPath h.Lt a b q ∧ mn ≤ q.length ∧ (mx = -1 ∨ (q.length : ℤ) ≤ mx)

theorem pathsBody_any (it : Iter) (v : h.Valid) (a b : EId) (mn mx : ℤ) :
    h.AnswersWith (pathsBody it a b false false mn mx) (fun r => ∃ ps, r = .ok ps ∧ ps.Nodup ∧
      ∀ q, q ∈ ps ↔ LinkPath h.Lt a b q ∧ mn ≤ q.length ∧ (mx = -1 ∨ (q.length : ℤ) ≤ mx)) := by
  unfold pathsBody
  refine AnswersWith.bind AnswersWith.get fun h1 so => ?_
  have hle : h1.le a b = true ↔ a = b ∨ h.Lt a b := by rw [le_iff, so.Lt]
  by_cases hab : a = b ∨ h.Lt a b
  swap
  · have : h1.le a b = false := by rw [Bool.eq_false_iff, ne_eq, hle]; exact hab
    simp only [this, Bool.not_false, if_true]
    refine AnswersWith.pure ⟨[], rfl, List.nodup_nil, fun q => ?_⟩
    simp only [List.not_mem_nil, false_iff, not_and]
    intro hq; exact absurd (hq.le v.order) hab
  simp only [hle.2 hab, Bool.not_true, Bool.false_eq_true, if_false]
  split
  · next heq =>
    subst heq
    refine AnswersWith.pure ⟨_, rfl, ?_, fun q => ?_⟩
    · split <;> simp
    · rw [linkPath_self v]
      split
      · simp only [List.mem_singleton]
        constructor
        · rintro rfl
          refine ⟨rfl, ?_⟩
          simp only [List.length_cons, List.length_nil]; push_cast; omega
        · exact fun hq => hq.1
      · simp only [List.not_mem_nil, false_iff, not_and]
        rintro rfl
        simp only [List.length_cons, List.length_nil]; push_cast; omega
  next hne =>
  refine Answers.bind (isFutureLink_answers v a b) ?_
  by_cases hlink : Covers h.Lt a b
  · rw [decide_eq_true ((mem_futureLinks v b a).2 hlink), if_pos rfl]
    refine AnswersWith.pure ⟨_, rfl, ?_, fun q => ?_⟩
    · split <;> simp [hne]
    · rw [linkPath_link v hlink]
      split
      · simp only [List.mem_singleton]
        constructor
        · rintro rfl
          refine ⟨rfl, ?_⟩
          simp only [List.length_cons, List.length_nil]; push_cast; omega
        · exact fun hq => hq.1
      · simp only [List.not_mem_nil, false_iff, not_and]
        rintro rfl
        simp only [List.length_cons, List.length_nil]; push_cast; omega
  rw [decide_eq_false (fun hc => hlink ((mem_futureLinks v b a).1 hc))]
  simp only [Bool.false_eq_true, if_false]
  have hlen : ∀ q, LinkPath h.Lt a b q → 3 ≤ q.length := fun q hq => by
    have := ((ext_iff v hne hlink q).2 hq).length
    simpa using this
  split
  · next hm =>
    refine Answers.bind (linkPast_answers v b) ?_
    refine AnswersWith.bind AnswersWith.get fun h2 so2 => ?_
    refine AnswersWith.bind AnswersWith.get fun h3 so3 => ?_
    have hp : h2.future a = h.future a := by simp only [Heap.future, so2.succ]
    rw [hp]
    have hlt := hab.resolve_left hne
    have hfuel : (h.future a ∩ h.past b).card < h3.next + 1 := by
      have := interval_card_lt_next v hlt
      rw [so3.next]; omega
    refine Answers.bind (pathsFind_answers it v b _ false false _ [a] a 3 mn mx hfuel) ?_
    obtain ⟨h4, h5⟩ := pfind_any it v b a (h3.next + 1) [a] a 3 mn mx (Or.inl rfl) hfuel (by simp) (by omega)
    have h6 := pfind_sound it v b a false false (h3.next + 1) [a] a 3 mn mx (Or.inl rfl)
    generalize pfind it h b (h.future a ∩ h.pastLinks b) false false (h3.next + 1) [a] a 3 mn mx = r at h5 h6
    refine AnswersWith.pure ⟨r.1, rfl, h6.1, fun q => ?_⟩
    rw [h5, ext_iff v hne hlink]
  · next hm =>
    refine AnswersWith.pure ⟨[], rfl, List.nodup_nil, fun q => ?_⟩
    simp only [List.not_mem_nil, false_iff, not_and]
    intro hq
    have := hlen q hq
    omega

/-- **C33.** `Paths(a, b, length)` with an int, a non-empty list or a string other than the extremal ones: in every consistent state with
exact link memory, whatever links have been computed and whatever order sets are iterated in, exactly the
paths of links from `a` to `b` with length in the range are yielded, each of them once. -/
theorem C33_paths (it : Iter) (v : h.Valid) (a b : EId) (arg : LenArg)
    (hs : arg ≠ .str "min" ∧ arg ≠ .str "max" ∧ arg ≠ .str "timegeo") (mn mx : ℤ) (hr : arg.range = some (mn, mx)) :
    h.AnswersWith (paths it a b arg) (fun r => ∃ ps, r = .ok ps ∧ ps.Nodup ∧
      ∀ q, q ∈ ps ↔ LinkPath h.Lt a b q ∧ mn ≤ q.length ∧ (mx = -1 ∨ (q.length : ℤ) ≤ mx)) := by
  cases arg with
  | str s =>
    simp only [ne_eq, LenArg.str.injEq] at hs
    simp only [LenArg.range, Option.some.injEq, Prod.mk.injEq] at hr
    obtain ⟨rfl, rfl⟩ := hr
    have h1 : (s == "min") = false := by simpa using hs.1
    have h2 : (s == "max") = false := by simpa using hs.2.1
    have h3 : (s == "timegeo") = false := by simpa using hs.2.2
    have h4 : paths it a b (.str s) = pathsBody it a b false false 0 (-1) := by
      simp only [paths, h1, h2, h3, Bool.or_false]
    rw [h4]
    exact pathsBody_any it v a b 0 (-1)
  | int z =>
    simp only [LenArg.range, Option.some.injEq, Prod.mk.injEq] at hr
    obtain ⟨rfl, rfl⟩ := hr
    exact pathsBody_any it v a b z z
  | list l =>
    cases l with
    | nil => simp [LenArg.range] at hr
    | cons x xs =>
      simp only [LenArg.range, Option.some.injEq, Prod.mk.injEq] at hr
      obtain ⟨rfl, rfl⟩ := hr
      exact pathsBody_any it v a b _ _
  | other => simp [LenArg.range] at hr

/-- **C33, all paths** (the default argument `'any'`). -/
theorem C33_all (it : Iter) (v : h.Valid) (a b : EId) :
    h.AnswersWith (paths it a b (.str "any")) (fun r => ∃ ps, r = .ok ps ∧ ps.Nodup ∧
      ∀ q, q ∈ ps ↔ LinkPath h.Lt a b q) := by
  refine AnswersWith.mono (C33_paths it v a b (.str "any") (by simp) 0 (-1) rfl) ?_
  rintro _ ⟨ps, rfl, hn, hps⟩
  refine ⟨ps, rfl, hn, fun q => ?_⟩
  rw [hps]
  simp

/-- **C33, bad arguments** raise. -/
theorem C33_errors (it : Iter) (a b : EId) :
    h.AnswersWith (paths it a b .other) (fun r => r = .error .valueError) ∧
    h.AnswersWith (paths it a b (.list [])) (fun r => r = .error .indexError) :=
  ⟨AnswersWith.pure rfl, AnswersWith.pure rfl⟩

/-- the common part of the two extremal modes -/
theorem pathsBody_extremal (it : Iter) (v : h.Valid) (a b : EId) (fm fx : Bool) (hx : fm = !fx) :
    h.AnswersWith (pathsBody it a b fm fx 0 (-1)) (fun r => ∃ ps, r = .ok ps ∧ ps.Nodup ∧
      ∀ q, q ∈ ps ↔ LinkPath h.Lt a b q ∧ ∀ q', LinkPath h.Lt a b q' →
        if fm then q.length ≤ q'.length else q'.length ≤ q.length) := by
  unfold pathsBody
  refine AnswersWith.bind AnswersWith.get fun h1 so => ?_
  have hle : h1.le a b = true ↔ a = b ∨ h.Lt a b := by rw [le_iff, so.Lt]
  by_cases hab : a = b ∨ h.Lt a b
  swap
  · have : h1.le a b = false := by rw [Bool.eq_false_iff, ne_eq, hle]; exact hab
    simp only [this, Bool.not_false, if_true]
    refine AnswersWith.pure ⟨[], rfl, List.nodup_nil, fun q => ?_⟩
    simp only [List.not_mem_nil, false_iff, not_and]
    intro hq; exact absurd (hq.le v.order) hab
  simp only [hle.2 hab, Bool.not_true, Bool.false_eq_true, if_false]
  split
  · next heq =>
    subst heq
    refine AnswersWith.pure ⟨[[a]], by simp, by simp, fun q => ?_⟩
    simp only [linkPath_self v, List.mem_singleton]
    constructor
    · rintro rfl
      refine ⟨rfl, ?_⟩
      rintro _ rfl
      split <;> exact le_rfl
    · exact fun hq => hq.1
  next hne =>
  refine Answers.bind (isFutureLink_answers v a b) ?_
  by_cases hlink : Covers h.Lt a b
  · rw [decide_eq_true ((mem_futureLinks v b a).2 hlink), if_pos rfl]
    refine AnswersWith.pure ⟨[[a, b]], by simp, by simp, fun q => ?_⟩
    simp only [linkPath_link v hlink, List.mem_singleton]
    constructor
    · rintro rfl
      refine ⟨rfl, ?_⟩
      rintro _ rfl
      split <;> exact le_rfl
    · exact fun hq => hq.1
  rw [decide_eq_false (fun hc => hlink ((mem_futureLinks v b a).1 hc))]
  simp only [Bool.false_eq_true, if_false, or_true, if_true]
  refine Answers.bind (linkPast_answers v b) ?_
  refine AnswersWith.bind AnswersWith.get fun h2 so2 => ?_
  refine AnswersWith.bind AnswersWith.get fun h3 so3 => ?_
  have hp : h2.future a = h.future a := by simp only [Heap.future, so2.succ]
  rw [hp]
  have hlt := hab.resolve_left hne
  have hfuel : (h.future a ∩ h.past b).card < h3.next + 1 := by
    have := interval_card_lt_next v hlt
    rw [so3.next]; omega
  refine Answers.bind (pathsFind_answers it v b _ fm fx _ [a] a 3 0 (-1) hfuel) ?_
  have h6 := pfind_sound it v b a fm fx (h3.next + 1) [a] a 3 0 (-1) (Or.inl rfl)
  simp only [ext_iff v hne hlink] at h6
  obtain ⟨q0, hq0⟩ := Ext.nonempty v b [a] a hlt hlink
  rw [ext_iff v hne hlink] at hq0
  cases fx with
  | false =>
    simp only [Bool.not_false] at hx
    subst hx
    obtain ⟨-, h5⟩ := pfind_min it v b a 0 le_rfl (h3.next + 1) [a] a 3 (-1) (Or.inl rfl) hfuel (by simp) (Or.inl rfl)
    generalize pfind it h b (h.future a ∩ h.pastLinks b) true false (h3.next + 1) [a] a 3 0 (-1) = r at h5 h6
    simp only [Bool.or_false, if_true]
    refine AnswersWith.pure ⟨_, rfl, h6.1.filter _, fun q => ?_⟩
    rw [List.mem_filter, decide_eq_true_eq]
    constructor
    · rintro ⟨h7, h8⟩
      refine ⟨h6.2 q h7, fun q' hq' => ?_⟩
      have := h5.lower q' ((ext_iff v hne hlink q').2 hq')
      have h9 : (q.length : ℤ) = r.2.2 := h8
      omega
    · rintro ⟨h7, h8⟩
      have h9 : (q.length : ℤ) = r.2.2 := by
        rcases h5.attained with h9 | ⟨q', hq', h9⟩
        · exact absurd ((ext_iff v hne hlink q0).2 hq0) (h5.none h9 q0)
        · have h10 := h8 q' ((ext_iff v hne hlink q').1 hq')
          have h11 := h5.lower q ((ext_iff v hne hlink q).2 h7)
          omega
      exact ⟨h5.found q ((ext_iff v hne hlink q).2 h7) h9, h9⟩
  | true =>
    simp only [Bool.not_true] at hx
    subst hx
    obtain ⟨-, h5⟩ := pfind_max it v b a (h3.next + 1) [a] a 3 0 (Or.inl rfl) hlt hlink hfuel (by simp)
    generalize pfind it h b (h.future a ∩ h.pastLinks b) false true (h3.next + 1) [a] a 3 0 (-1) = r at h5 h6
    simp only [Bool.or_true, if_true, Bool.false_eq_true, if_false]
    refine AnswersWith.pure ⟨_, rfl, h6.1.filter _, fun q => ?_⟩
    rw [List.mem_filter, decide_eq_true_eq]
    constructor
    · rintro ⟨h7, h8⟩
      refine ⟨h6.2 q h7, fun q' hq' => ?_⟩
      have := h5.upper q' ((ext_iff v hne hlink q').2 hq')
      have h9 : (q.length : ℤ) = r.2.1 := h8
      omega
    · rintro ⟨h7, h8⟩
      have h9 : (q.length : ℤ) = r.2.1 := by
        have h11 := h5.upper q ((ext_iff v hne hlink q).2 h7)
        rcases h5.attained with h9 | ⟨q', hq', h9⟩
        · have := h5.upper q0 ((ext_iff v hne hlink q0).2 hq0)
          have h12 := ((ext_iff v hne hlink q).2 h7).length
          omega
        · have h10 := h8 q' ((ext_iff v hne hlink q').1 hq')
          omega
      exact ⟨h5.found q ((ext_iff v hne hlink q).2 h7) h9, h9⟩

/-- **C34, shortest paths.** `Paths(a, b, 'min')` yields exactly the paths of links from `a` to `b` of least length, each once. -/
theorem C34_min (it : Iter) (v : h.Valid) (a b : EId) :
    h.AnswersWith (paths it a b (.str "min")) (fun r => ∃ ps, r = .ok ps ∧ ps.Nodup ∧
      ∀ q, q ∈ ps ↔ LinkPath h.Lt a b q ∧ ∀ q', LinkPath h.Lt a b q' → q.length ≤ q'.length) := by
  have := pathsBody_extremal it v a b true false rfl
  simp only [if_true] at this
  exact this

/-- **C34, longest paths.** `Paths(a, b, 'max')` and `Paths(a, b, 'timegeo')` yield exactly the paths of links of greatest length, each once. -/
theorem C34_max (it : Iter) (v : h.Valid) (a b : EId) (s : String) (hs : s = "max" ∨ s = "timegeo") :
    h.AnswersWith (paths it a b (.str s)) (fun r => ∃ ps, r = .ok ps ∧ ps.Nodup ∧
      ∀ q, q ∈ ps ↔ LinkPath h.Lt a b q ∧ ∀ q', LinkPath h.Lt a b q' → q'.length ≤ q.length) := by
  have := pathsBody_extremal it v a b false true rfl
  simp only [Bool.false_eq_true, if_false] at this
  rcases hs with rfl | rfl <;> exact this

/-- **C33/C34, connected.** Between related events there is at least one path, so the extremal modes yield something exactly if `a ≤ b`. -/
theorem C34_nonempty (v : h.Valid) (a b : EId) : (∃ q, LinkPath h.Lt a b q) ↔ a = b ∨ h.Lt a b := by
  constructor
  · rintro ⟨q, hq⟩; exact hq.le v.order
  · rintro (rfl | hab)
    · exact ⟨[a], rfl, rfl, List.isChain_singleton a⟩
    · obtain ⟨m, hm⟩ := exists_steps v _ a b le_rfl hab
      obtain ⟨p, hp, -⟩ := (steps_iff_linkPath m a b).1 hm
      exact ⟨p, hp⟩

example : LinkReachable exShort ∧
    ((paths Iter.asc 0 6 (.str "any")).run exShort).1.toOption = some [[0, 5, 6], [0, 1, 2, 3, 4, 6]] ∧
    ((paths Iter.asc 0 6 (.str "min")).run exShort).1.toOption = some [[0, 5, 6]] ∧
    ((paths Iter.desc 0 6 (.str "timegeo")).run exShort).1.toOption = some [[0, 1, 2, 3, 4, 6]] ∧
    ((paths Iter.desc 0 6 (.list [2, 5])).run exShort).1.toOption = some [[0, 5, 6]] ∧
    ((paths Iter.desc 0 6 (.int 6)).run exShort).1.toOption = some [[0, 1, 2, 3, 4, 6]] :=
  ⟨exShort_reach, by decide, by decide, by decide, by decide, by decide⟩

end Causets
