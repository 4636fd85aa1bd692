import Verif.Model.Generators
import Verif.Props.Paths

/-! # C111: `Paths` consumed step by step -/

namespace Causets

open Heap

variable {h : Heap}

/-- What the rest of the program may do between the steps: the state stays consistent, and between `a` and `b` there are the same events in the same order as in `h`.  Everything else may change. -/
structure Undisturbed (h : Heap) (a b : EId) (g : Heap) : Prop where
  valid : g.Valid
  links : g.LinksExact
  between : ∀ x, ((a = x ∨ g.Lt a x) ∧ (x = b ∨ g.Lt x b)) ↔ ((a = x ∨ h.Lt a x) ∧ (x = b ∨ h.Lt x b))
  order : ∀ x y, (a = x ∨ h.Lt a x) → (x = b ∨ h.Lt x b) → (a = y ∨ h.Lt a y) → (y = b ∨ h.Lt y b) → (g.Lt x y ↔ h.Lt x y)

namespace Undisturbed

variable {a b : EId} {g : Heap}

theorem of_sameOrder (v : h.Valid) (so : h.SameOrder g) (lx : g.LinksExact) : Undisturbed h a b g where
  valid := so.valid v
  links := lx
  between x := by rw [so.Lt]
  order x y _ _ _ _ := by rw [so.Lt]

theorem sameOrder (u : Undisturbed h a b g) {g' : Heap} (so : g.SameOrder g') (lx : g'.LinksExact) : Undisturbed h a b g' where
  valid := so.valid u.valid
  links := lx
  between x := by rw [so.Lt]; exact u.between x
  order x y := by rw [so.Lt]; exact u.order x y

theorem covers (u : Undisturbed h a b g) (v : h.Valid) {x e : EId} (hax : a = x ∨ h.Lt a x) (hxb : x = b ∨ h.Lt x b) :
    (Covers g.Lt x e ∧ g.Lt e b) ↔ (Covers h.Lt x e ∧ h.Lt e b) := by
  have hx := (u.between x).2 ⟨hax, hxb⟩
  constructor
  · rintro ⟨⟨h1, h2⟩, h3⟩
    have hae : a = e ∨ g.Lt a e := by
      rcases hx.1 with rfl | h4
      · exact Or.inr h1
      · exact Or.inr (u.valid.trans h4 h1)
    obtain ⟨k1, k2⟩ := (u.between e).1 ⟨hae, Or.inr h3⟩
    have hxe := (u.order x e hax hxb k1 k2).1 h1
    have hab : a = b ∨ h.Lt a b := by
      rcases k1 with rfl | k1
      · exact k2
      · rcases k2 with rfl | k2
        · exact Or.inr k1
        · exact Or.inr (v.trans k1 k2)
    refine ⟨⟨hxe, ?_⟩, (u.order e b k1 k2 hab (Or.inl rfl)).1 h3⟩
    rintro c ⟨c1, c2⟩
    have hac : a = c ∨ h.Lt a c := by
      rcases hax with rfl | h4
      · exact Or.inr c1
      · exact Or.inr (v.trans h4 c1)
    have hcb : c = b ∨ h.Lt c b := by
      rcases k2 with rfl | k2
      · exact Or.inr c2
      · exact Or.inr (v.trans c2 k2)
    exact h2 c ⟨(u.order x c hax hxb hac hcb).2 c1, (u.order c e hac hcb k1 k2).2 c2⟩
  · rintro ⟨⟨h1, h2⟩, h3⟩
    have k1 : a = e ∨ h.Lt a e := by
      rcases hax with rfl | h4
      · exact Or.inr h1
      · exact Or.inr (v.trans h4 h1)
    have k2 : e = b ∨ h.Lt e b := Or.inr h3
    have hab : a = b ∨ h.Lt a b := by
      rcases k1 with rfl | k1
      · exact k2
      · exact Or.inr (v.trans k1 h3)
    refine ⟨⟨(u.order x e hax hxb k1 k2).2 h1, ?_⟩, (u.order e b k1 k2 hab (Or.inl rfl)).2 h3⟩
    rintro c ⟨c1, c2⟩
    have g3 := (u.order e b k1 k2 hab (Or.inl rfl)).2 h3
    have hac : a = c ∨ g.Lt a c := by
      rcases hx.1 with rfl | h4
      · exact Or.inr c1
      · exact Or.inr (u.valid.trans h4 c1)
    obtain ⟨m1, m2⟩ := (u.between c).1 ⟨hac, Or.inr (u.valid.trans c2 g3)⟩
    exact h2 c ⟨(u.order x c hax hxb m1 m2).1 c1, (u.order c e m1 m2 k1 k2).1 c2⟩

end Undisturbed

section run

variable (its : ℕ → Iter) (env : ℕ → Heap → Heap)

/-- the step loop over a list of values -/
theorem run_yieldAll {α : Type} (I : Heap → Prop) (hI : ∀ n g, I g → I (env n g)) (k : Gen α) : ∀ (ps : List α) (n : ℕ) (g : Heap), I g →
    ∃ n' g', I g' ∧ (Gen.yieldAll ps k).run its env n g = (ps ++ (k.run its env n' g').1, (k.run its env n' g').2) := by
  intro ps
  induction ps with
  | nil => intro n g hg; exact ⟨n, g, hg, rfl⟩
  | cons p ps ih =>
    intro n g hg
    obtain ⟨n', g', i1, i2⟩ := ih (n + 1) (env n g) (hI n g hg)
    refine ⟨n', g', i1, ?_⟩
    simp only [Gen.yieldAll] at i2
    simp only [Gen.yieldAll, List.foldr_cons, Gen.run, i2, List.cons_append]

/-- values that are already there are all yielded, whatever happens in between -/
theorem run_yieldAll_done {α : Type} : ∀ (ps : List α) (n : ℕ) (g : Heap),
    ((Gen.yieldAll ps .done).run its env n g).1 = ps ∧ ((Gen.yieldAll ps .done).run its env n g).2.1 = none := by
  intro ps
  induction ps with
  | nil => intro n g; exact ⟨rfl, rfl⟩
  | cons p ps ih =>
    intro n g
    have i := ih (n + 1) (env n g)
    simp only [Gen.yieldAll] at i
    simp only [Gen.yieldAll, List.foldr_cons, Gen.run]
    exact ⟨by rw [i.1], i.2⟩

theorem run_query {α β : Type} (m : Iter → StateM Heap β) (k : Iter → β → Gen α) (n : ℕ) (g : Heap) :
    (Gen.query m k).run its env n g = (k (its n) ((m (its n)).run g).1).run its env n ((m (its n)).run g).2 := rfl

theorem run_queryWith {α β : Type} {h0 : Heap} {m : Iter → StateM Heap β} {k : Iter → β → Gen α} {P : β → Prop} {n : ℕ} {g : Heap}
    (hm : h0.AnswersWith (m (its n)) P) (so : h0.SameOrder g) (lx : g.LinksExact) :
    ∃ x g', P x ∧ h0.SameOrder g' ∧ g'.LinksExact ∧ (Gen.query m k).run its env n g = (k (its n) x).run its env n g' := by
  obtain ⟨h1, h2, h3⟩ := hm g so lx
  exact ⟨_, _, h1, h2, h3, rfl⟩

variable {a b : EId} (hE : ∀ n g, Undisturbed h a b g → Undisturbed h a b (env n g))
include hE

theorem pathsFindGen_run (v : h.Valid) (hab : h.Lt a b) (bL : Finset EId) (hbL : ∀ e, e ∈ bL ↔ h.Lt a e ∧ Covers h.Lt e b) (mn mx : ℤ) :
    ∀ (fuel : ℕ) (path : List EId) (x : EId) (l : ℤ) (k : Gen (List EId)) (n : ℕ) (g : Heap),
    Undisturbed h a b g → (a = x ∨ h.Lt a x) → h.Lt x b → (h.future x ∩ h.past b).card < fuel → l = path.length + 2 → (mx = -1 ∨ l ≤ mx) →
    ∃ ys n' g', Undisturbed h a b g' ∧
      (pathsFindGen b bL mn mx fuel path x l k).run its env n g = (ys ++ (k.run its env n' g').1, (k.run its env n' g').2) ∧
      ys.Nodup ∧ ∀ q, q ∈ ys ↔ Ext h b path x q ∧ mn ≤ q.length ∧ (mx = -1 ∨ (q.length : ℤ) ≤ mx) := by
  intro fuel
  induction fuel with
  | zero => intro path x l k n g _ _ _ hf; omega
  | succ fuel ih =>
    intro path x l k n g u hax hxb hf hl hmx
    have hm : g.AnswersWith (do let lf ← linkFuture x; pure (lf ∩ (← MonadState.get).past b)) (fun s => s = g.futureLinks x ∩ g.past b) := by
      refine Answers.bind (linkFuture_answers u.valid x) ?_
      refine AnswersWith.bind AnswersWith.get fun h1 so => ?_
      refine AnswersWith.pure ?_
      simp only [Heap.past, so.prec]
    obtain ⟨s, g1, rfl, so1, lx1, e1⟩ := run_queryWith its env (k := fun it aLinked =>
      let perimetral := aLinked ∩ bL
      let internal := aLinked \ perimetral
      let rest := if l = mx then k else
        (it.ord (1 :: path) internal).foldr (fun e k => pathsFindGen b bL mn mx fuel (path ++ [e]) e (l + 1) k) k
      if mn ≤ l ∧ perimetral.card > 0 then
        .yieldAll ((it.ord (0 :: path) perimetral).map (fun e => path ++ [e, b])) rest
      else rest) (m := fun _ => do let lf ← linkFuture x; pure (lf ∩ (← MonadState.get).past b)) (n := n) hm (SameOrder.refl g) u.links
    have u1 : Undisturbed h a b g1 := u.sameOrder so1 lx1
    -- the two sets
    have hper : ∀ e, e ∈ g.futureLinks x ∩ g.past b ∩ bL ↔ Covers h.Lt x e ∧ Covers h.Lt e b := by
      intro e
      rw [Finset.mem_inter, Finset.mem_inter, mem_futureLinks u.valid, u.valid.past_eq, u.covers v hax (Or.inr hxb), hbL]
      constructor
      · rintro ⟨⟨h1, _⟩, _, h2⟩; exact ⟨h1, h2⟩
      · rintro ⟨h1, h2⟩
        refine ⟨⟨h1, h2.1⟩, ?_, h2⟩
        rcases hax with rfl | h0
        · exact h1.1
        · exact v.trans h0 h1.1
    have hint : ∀ e, e ∈ (g.futureLinks x ∩ g.past b) \ (g.futureLinks x ∩ g.past b ∩ bL) ↔ Covers h.Lt x e ∧ h.Lt e b ∧ ¬ Covers h.Lt e b := by
      intro e
      rw [Finset.mem_sdiff, hper, Finset.mem_inter, mem_futureLinks u.valid, u.valid.past_eq, u.covers v hax (Or.inr hxb)]
      tauto
    -- the loop over the internal events
    have hloop : ∀ (L : List EId), L.Nodup → (∀ e ∈ L, Covers h.Lt x e ∧ h.Lt e b ∧ ¬ Covers h.Lt e b) → (mx = -1 ∨ l + 1 ≤ mx) →
        ∀ (n : ℕ) (g : Heap), Undisturbed h a b g → ∃ ys n' g', Undisturbed h a b g' ∧
        (L.foldr (fun e k => pathsFindGen b bL mn mx fuel (path ++ [e]) e (l + 1) k) k).run its env n g =
          (ys ++ (k.run its env n' g').1, (k.run its env n' g').2) ∧ ys.Nodup ∧
        ∀ q, q ∈ ys ↔ ∃ e ∈ L, Ext h b (path ++ [e]) e q ∧ mn ≤ q.length ∧ (mx = -1 ∨ (q.length : ℤ) ≤ mx) := by
      intro L
      induction L with
      | nil => intro _ _ _ n g hg; exact ⟨[], n, g, hg, rfl, List.nodup_nil, by simp⟩
      | cons e es ihL =>
        intro hn hL hmx' n g hg
        have hn' := List.nodup_cons.1 hn
        have he := hL e (by simp)
        have hae : a = e ∨ h.Lt a e := by
          rcases hax with rfl | h0
          · exact Or.inr he.1.1
          · exact Or.inr (v.trans h0 he.1.1)
        have hcard : (h.future e ∩ h.past b).card < fuel := by
          have : (h.future e ∩ h.past b).card < (h.future x ∩ h.past b).card := by
            refine Finset.card_lt_card ⟨fun z hz => ?_, fun hc => ?_⟩
            · rw [Finset.mem_inter, v.future_eq, v.past_eq] at hz ⊢
              exact ⟨v.trans he.1.1 hz.1, hz.2⟩
            · have hx : e ∈ h.future x ∩ h.past b := by
                rw [Finset.mem_inter, v.future_eq, v.past_eq]
                exact ⟨he.1.1, he.2.1⟩
              have := hc hx
              rw [Finset.mem_inter, v.future_eq] at this
              exact v.irrefl _ this.1
          omega
        obtain ⟨ys1, n1, g1, k1, k2, k3, k4⟩ := ih (path ++ [e]) e (l + 1)
          (es.foldr (fun e k => pathsFindGen b bL mn mx fuel (path ++ [e]) e (l + 1) k) k) n g hg hae he.2.1 hcard
          (by rw [hl, List.length_append]; simp; omega) hmx'
        obtain ⟨ys2, n2, g2, m1, m2, m3, m4⟩ := ihL hn'.2 (fun y hy => hL y (by simp [hy])) hmx' n1 g1 k1
        refine ⟨ys1 ++ ys2, n2, g2, m1, ?_, ?_, ?_⟩
        · rw [List.foldr_cons, k2, m2, List.append_assoc]
        · refine List.nodup_append.2 ⟨k3, m3, ?_⟩
          rintro q hq q' hq' rfl
          have hq1 := ((k4 q).1 hq).1
          obtain ⟨e', he', hq2, -⟩ := (m4 q).1 hq'
          have := hq1.at.symm.trans hq2.at
          rw [Option.some.injEq] at this
          exact hn'.1 (this ▸ he')
        · intro q
          rw [List.mem_append, k4, m4]
          simp only [List.mem_cons, exists_eq_or_imp]
    -- the rest after the perimetral yields
    have hrest : ∀ (m : ℕ) (g' : Heap), Undisturbed h a b g' → ∃ ys n' g'', Undisturbed h a b g'' ∧
        (if l = mx then k else ((its n).ord (1 :: path) ((g.futureLinks x ∩ g.past b) \ (g.futureLinks x ∩ g.past b ∩ bL))).foldr
          (fun e k => pathsFindGen b bL mn mx fuel (path ++ [e]) e (l + 1) k) k).run its env m g' =
          (ys ++ (k.run its env n' g'').1, (k.run its env n' g'').2) ∧ ys.Nodup ∧
        ∀ q, q ∈ ys ↔ ∃ e, (Covers h.Lt x e ∧ h.Lt e b ∧ ¬ Covers h.Lt e b) ∧ Ext h b (path ++ [e]) e q ∧ mn ≤ q.length ∧ (mx = -1 ∨ (q.length : ℤ) ≤ mx) := by
      intro m g' ug'
      by_cases hlm : l = mx
      · rw [if_pos hlm]
        refine ⟨[], m, g', ug', rfl, List.nodup_nil, fun q => ?_⟩
        simp only [List.not_mem_nil, false_iff]
        rintro ⟨e, -, hq, -, hq2⟩
        have := hq.length
        rw [List.length_append, List.length_singleton] at this
        omega
      · rw [if_neg hlm]
        obtain ⟨ys, n', g'', k1, k2, k3, k4⟩ := hloop _ ((its n).nodup (1 :: path) _) (fun e he => (hint e).1 (((its n).mem _ _ _).1 he)) (by omega) m g' ug'
        refine ⟨ys, n', g'', k1, k2, k3, fun q => ?_⟩
        rw [k4]
        constructor
        · rintro ⟨e, he, hq⟩; exact ⟨e, (hint e).1 (((its n).mem _ _ _).1 he), hq⟩
        · rintro ⟨e, he, hq⟩; exact ⟨e, ((its n).mem _ _ _).2 ((hint e).2 he), hq⟩
    have key : ∀ q, Ext h b path x q ∧ mn ≤ q.length ∧ (mx = -1 ∨ (q.length : ℤ) ≤ mx) ↔
        (mn ≤ l ∧ ∃ e, (Covers h.Lt x e ∧ Covers h.Lt e b) ∧ q = path ++ [e, b]) ∨
        ∃ e, (Covers h.Lt x e ∧ h.Lt e b ∧ ¬ Covers h.Lt e b) ∧ Ext h b (path ++ [e]) e q ∧ mn ≤ q.length ∧ (mx = -1 ∨ (q.length : ℤ) ≤ mx) := by
      intro q
      rw [Ext.decompose v]
      have hlen : ∀ e, q = path ++ [e, b] → (q.length : ℤ) = l := by
        rintro e rfl
        rw [List.length_append, hl]; simp
      constructor
      · rintro ⟨⟨e, he, hq⟩ | ⟨e, he, hq⟩, h1, h2⟩
        · exact Or.inl ⟨by rw [← hlen e hq]; exact h1, e, he, hq⟩
        · exact Or.inr ⟨e, he, hq, h1, h2⟩
      · rintro (⟨h1, e, he, hq⟩ | ⟨e, he, hq, h1, h2⟩)
        · refine ⟨Or.inl ⟨e, he, hq⟩, ?_⟩
          rw [hlen e hq]; exact ⟨h1, hmx⟩
        · exact ⟨Or.inr ⟨e, he, hq⟩, h1, h2⟩
    rw [pathsFindGen, e1]
    dsimp only
    split
    · next hc =>
      obtain ⟨n1, g2, k1, k2⟩ := run_yieldAll its env _ hE
        (if l = mx then k else ((its n).ord (1 :: path) ((g.futureLinks x ∩ g.past b) \ (g.futureLinks x ∩ g.past b ∩ bL))).foldr
          (fun e k => pathsFindGen b bL mn mx fuel (path ++ [e]) e (l + 1) k) k)
        (((its n).ord (0 :: path) (g.futureLinks x ∩ g.past b ∩ bL)).map (fun e => path ++ [e, b])) n g1 u1
      obtain ⟨ys, n', g'', m1, m2, m3, m4⟩ := hrest n1 g2 k1
      refine ⟨_ ++ ys, n', g'', m1, by rw [k2, m2, List.append_assoc], ?_, fun q => ?_⟩
      · refine List.nodup_append.2 ⟨((its n).nodup _ _).map (fun x y hxy => by simpa using hxy), m3, ?_⟩
        rintro q hq q' hq' rfl
        obtain ⟨e, he, rfl⟩ := List.mem_map.1 hq
        rw [(its n).mem, hper] at he
        obtain ⟨e', he', hq2, -⟩ := (m4 _).1 hq'
        have := hq2.at
        simp at this
        exact he'.2.2 (this ▸ he.2)
      · rw [List.mem_append, m4, key]
        refine or_congr ?_ Iff.rfl
        rw [List.mem_map]
        constructor
        · rintro ⟨e, he, rfl⟩
          rw [(its n).mem, hper] at he
          exact ⟨hc.1, e, he, rfl⟩
        · rintro ⟨-, e, he, rfl⟩
          exact ⟨e, ((its n).mem _ _ _).2 ((hper e).2 he), rfl⟩
    · next hc =>
      obtain ⟨ys, n', g'', m1, m2, m3, m4⟩ := hrest n g1 u1
      refine ⟨ys, n', g'', m1, m2, m3, fun q => ?_⟩
      rw [m4, key]
      constructor
      · exact Or.inr
      · rintro (⟨h1, e, he, -⟩ | hq)
        · exact absurd ⟨h1, Finset.card_pos.2 ⟨e, (hper e).2 he⟩⟩ hc
        · exact hq

theorem pathsBodyGen_range (v : h.Valid) (lx : h.LinksExact) (mn mx : ℤ) (n : ℕ) :
    ∃ ps g, (pathsBodyGen a b false false mn mx).run its env n h = (ps, none, g) ∧ ps.Nodup ∧
      ∀ q, q ∈ ps ↔ LinkPath h.Lt a b q ∧ mn ≤ q.length ∧ (mx = -1 ∨ (q.length : ℤ) ≤ mx) := by
  have fin : ∀ (ps : List (List EId)) (n : ℕ) (g : Heap), ∃ g', (Gen.yieldAll ps .done).run its env n g = (ps, none, g') := by
    intro ps n g
    obtain ⟨h1, h2⟩ := run_yieldAll_done its env ps n g
    exact ⟨((Gen.yieldAll ps .done).run its env n g).2.2, Prod.ext h1 (Prod.ext h2 rfl)⟩
  unfold pathsBodyGen
  rw [run_query]
  have hle : h.le a b = true ↔ a = b ∨ h.Lt a b := by rw [le_iff]
  change ∃ ps g, Gen.run its env n (if (!h.le a b) = true then Gen.done else _) h = _ ∧ _
  by_cases hab : a = b ∨ h.Lt a b
  swap
  · have : h.le a b = false := by rw [Bool.eq_false_iff, ne_eq, hle]; exact hab
    simp only [this, Bool.not_false, if_true]
    refine ⟨[], h, rfl, List.nodup_nil, fun q => ?_⟩
    simp only [List.not_mem_nil, false_iff, not_and]
    intro hq; exact absurd (hq.le v.order) hab
  simp only [hle.2 hab, Bool.not_true, Bool.false_eq_true, if_false]
  split
  · next heq =>
    obtain ⟨g', hg'⟩ := fin (if mn ≤ 1 ∧ (1 ≤ mx ∨ mx = -1) then [[a]] else []) n h
    refine ⟨_, g', hg', ?_, fun q => ?_⟩
    · split <;> simp
    · subst heq
      rw [linkPath_self v]
      split
      · simp only [List.mem_singleton]
        constructor
        · rintro rfl
          refine ⟨rfl, ?_⟩
          simp only [List.length_cons, List.length_nil]; push_cast; omega
        · exact fun hq => hq.1
      · simp only [List.not_mem_nil, false_iff, not_and]
        rintro rfl
        simp only [List.length_cons, List.length_nil]; push_cast; omega
  next hne =>
  obtain ⟨_, g1, rfl, so1, lx1, e1⟩ := run_queryWith its env (n := n) (m := fun _ => isFutureLink a b) (isFutureLink_answers v a b) (SameOrder.refl h) lx
    (k := fun _ link => if link = true then .yieldAll (if mn ≤ 2 ∧ (2 ≤ mx ∨ mx = -1) then [[a, b]] else []) .done
      else if 3 ≤ mx ∨ mx = -1 then
        .query (fun _ => do let lp ← linkPast b; pure ((← get).future a ∩ lp, (← get).next)) (fun _ r => pathsFindGen b r.1 mn mx (r.2 + 1) [a] a 3 .done)
      else .done)
  rw [Bool.or_self]
  simp only [Bool.false_eq_true, if_false]
  rw [e1]
  by_cases hlink : Covers h.Lt a b
  · rw [decide_eq_true ((mem_futureLinks v b a).2 hlink), if_pos rfl]
    obtain ⟨g', hg'⟩ := fin (if mn ≤ 2 ∧ (2 ≤ mx ∨ mx = -1) then [[a, b]] else []) n g1
    refine ⟨_, g', hg', ?_, fun q => ?_⟩
    · split <;> simp [hne]
    · rw [linkPath_link v hlink]
      split
      · simp only [List.mem_singleton]
        constructor
        · rintro rfl
          refine ⟨rfl, ?_⟩
          simp only [List.length_cons, List.length_nil]; push_cast; omega
        · exact fun hq => hq.1
      · simp only [List.not_mem_nil, false_iff, not_and]
        rintro rfl
        simp only [List.length_cons, List.length_nil]; push_cast; omega
  rw [decide_eq_false (fun hc => hlink ((mem_futureLinks v b a).1 hc))]
  simp only [Bool.false_eq_true, if_false]
  have hlen : ∀ q, LinkPath h.Lt a b q → 3 ≤ q.length := fun q hq => by
    have := ((ext_iff v hne hlink q).2 hq).length
    simpa using this
  have hlt := hab.resolve_left hne
  split
  · next hm =>
    have hq2 : h.AnswersWith (do let lp ← linkPast b; pure ((← MonadState.get).future a ∩ lp, (← MonadState.get).next)) (fun r => r = (h.future a ∩ h.pastLinks b, h.next)) := by
      refine Answers.bind (linkPast_answers v b) ?_
      refine AnswersWith.bind AnswersWith.get fun h2 so2 => ?_
      refine AnswersWith.bind AnswersWith.get fun h3 so3 => ?_
      refine AnswersWith.pure ?_
      simp only [Heap.future, so2.succ, so3.next]
    obtain ⟨_, g2, rfl, so2, lx2, e2⟩ := run_queryWith its env (n := n) (m := fun _ => do let lp ← linkPast b; pure ((← MonadState.get).future a ∩ lp, (← MonadState.get).next)) hq2 so1 lx1
      (k := fun _ r => pathsFindGen b r.1 mn mx (r.2 + 1) [a] a 3 .done)
    rw [e2]
    dsimp only
    have hfuel : (h.future a ∩ h.past b).card < h.next + 1 := by
      have := interval_card_lt_next v hlt
      omega
    obtain ⟨ys, n', g', -, k2, k3, k4⟩ := pathsFindGen_run its env hE v hlt (h.future a ∩ h.pastLinks b)
      (fun e => by rw [Finset.mem_inter, v.future_eq, mem_pastLinks v]) mn mx (h.next + 1) [a] a 3 .done n g2
      (Undisturbed.of_sameOrder v so2 lx2) (Or.inl rfl) hlt hfuel (by simp) (by omega)
    refine ⟨ys, g', ?_, k3, fun q => ?_⟩
    · rw [k2]; simp [Gen.run]
    · rw [k4, ext_iff v hne hlink]
  · next hm =>
    refine ⟨[], g1, rfl, List.nodup_nil, fun q => ?_⟩
    simp only [List.not_mem_nil, false_iff, not_and]
    intro hq
    have := hlen q hq
    omega

end run

/-! ## the extremal modes -/

/-- in the extremal modes everything is computed before the first yield -/
theorem pathsBodyGen_extremal (its : ℕ → Iter) (env : ℕ → Heap → Heap) (a b : EId) (fm fx : Bool) (hfx : (fm || fx) = true) (mn mx : ℤ) (n : ℕ) (g : Heap) (ps : List (List EId))
    (hp : ((pathsBody (its n) a b fm fx mn mx).run g).1 = .ok ps) :
    ((pathsBodyGen a b fm fx mn mx).run its env n g).1 = ps ∧ ((pathsBodyGen a b fm fx mn mx).run its env n g).2.1 = none := by
  unfold pathsBodyGen
  unfold pathsBody at hp
  simp only [hfx, if_true] at hp
  rw [run_query]
  change ((if (!g.le a b) = true then _ else _ : StateM Heap (Except Err (List (List EId)))).run g).1 = _ at hp
  change (Gen.run its env n (if (!g.le a b) = true then Gen.done else _) g).1 = _ ∧ (Gen.run its env n (if (!g.le a b) = true then Gen.done else _) g).2.1 = _
  split at hp
  · next hc =>
    rw [if_pos hc]
    injection hp with hp
    exact ⟨hp, rfl⟩
  · next hc =>
    rw [if_neg hc]
    by_cases heq : a = b
    · rw [if_pos heq] at hp ⊢
      injection hp with hp
      rw [← hp]
      exact run_yieldAll_done its env _ n _
    · rw [if_neg heq] at hp ⊢
      rw [run_query]
      change ((if ((isFutureLink a b).run g).1 = true then _ else _ : StateM Heap (Except Err (List (List EId)))).run ((isFutureLink a b).run g).2).1 = _ at hp
      by_cases hl : ((isFutureLink a b).run g).1 = true
      · rw [if_pos hl] at hp ⊢
        injection hp with hp
        rw [← hp]
        exact run_yieldAll_done its env _ n _
      · rw [if_neg hl] at hp ⊢
        by_cases hm : 3 ≤ mx ∨ mx = -1
        · rw [if_pos hm] at hp ⊢
          rw [run_query, if_pos hfx, run_query]
          generalize hg2 : ((isFutureLink a b).run g).2 = g2 at hp ⊢
          change ((match ((pathsFind (its n) b (((linkPast b).run g2).2.future a ∩ ((linkPast b).run g2).1) fm fx (((linkPast b).run g2).2.next + 1) [a] a 3 mn mx).run ((linkPast b).run g2).2).1 with
            | .error x => pure (.error x)
            | .ok (ps, mn', mx') =>
              if fm = true then pure (.ok (ps.filter (fun p => ((p.length : ℕ) : ℤ) = mx')))
                else pure (.ok (ps.filter (fun p => ((p.length : ℕ) : ℤ) = mn'))) : StateM Heap (Except Err (List (List EId)))).run
              ((pathsFind (its n) b (((linkPast b).run g2).2.future a ∩ ((linkPast b).run g2).1) fm fx (((linkPast b).run g2).2.next + 1) [a] a 3 mn mx).run ((linkPast b).run g2).2).2).1 = _ at hp
          change (Gen.run its env n (match ((pathsFind (its n) b (((linkPast b).run g2).2.future a ∩ ((linkPast b).run g2).1) fm fx (((linkPast b).run g2).2.next + 1) [a] a 3 mn mx).run ((linkPast b).run g2).2).1 with
              | .error x => .raise x
              | .ok (ps, mn', mx') => .yieldAll (ps.filter (fun p => ((p.length : ℕ) : ℤ) = if fm then mx' else mn')) .done) _).1 = _ ∧
            (Gen.run its env n (match ((pathsFind (its n) b (((linkPast b).run g2).2.future a ∩ ((linkPast b).run g2).1) fm fx (((linkPast b).run g2).2.next + 1) [a] a 3 mn mx).run ((linkPast b).run g2).2).1 with
              | .error x => .raise x
              | .ok (ps, mn', mx') => .yieldAll (ps.filter (fun p => ((p.length : ℕ) : ℤ) = if fm then mx' else mn')) .done) _).2.1 = _
          generalize ((pathsFind (its n) b (((linkPast b).run g2).2.future a ∩ ((linkPast b).run g2).1) fm fx (((linkPast b).run g2).2.next + 1) [a] a 3 mn mx).run ((linkPast b).run g2).2) = r at hp ⊢
          obtain ⟨r, g3⟩ := r
          match r, hp with
          | .error x, hp => exact nomatch hp
          | .ok (qs, mn', mx'), hp =>
            dsimp only at hp ⊢
            have : ps = qs.filter (fun p => ((p.length : ℕ) : ℤ) = if fm = true then mx' else mn') := by
              cases fm
              · injection hp with hp; exact hp.symm
              · injection hp with hp; exact hp.symm
            rw [this]
            exact run_yieldAll_done its env _ n _
        · rw [if_neg hm] at hp ⊢
          injection hp with hp
          exact ⟨hp, rfl⟩

/-! ## the theorems -/

/-- **C111, in steps.** `Paths(a, b, length)` in every non-extremal mode: the program may take the paths one by one and do anything between two steps that does not change the order between `a` and `b` – create events
elsewhere, compute and forget links, run other generators, and the set order may differ from step to step.  Altogether it gets every path of links of the requested length exactly once, and no exception. -/
theorem C111_steps (its : ℕ → Iter) (env : ℕ → Heap → Heap) (v : h.Valid) (lx : h.LinksExact) (a b : EId) (hE : ∀ n g, Undisturbed h a b g → Undisturbed h a b (env n g))
    (arg : LenArg) (hs : arg ≠ .str "min" ∧ arg ≠ .str "max" ∧ arg ≠ .str "timegeo") (mn mx : ℤ) (hr : arg.range = some (mn, mx)) :
    ∃ ps g, (pathsGen a b arg).run its env 0 h = (ps, none, g) ∧ ps.Nodup ∧
      ∀ q, q ∈ ps ↔ LinkPath h.Lt a b q ∧ mn ≤ q.length ∧ (mx = -1 ∨ (q.length : ℤ) ≤ mx) := by
  cases arg with
  | str s =>
    simp only [ne_eq, LenArg.str.injEq] at hs
    simp only [LenArg.range, Option.some.injEq, Prod.mk.injEq] at hr
    obtain ⟨rfl, rfl⟩ := hr
    have h1 : (s == "min") = false := by simpa using hs.1
    have h2 : (s == "max") = false := by simpa using hs.2.1
    have h3 : (s == "timegeo") = false := by simpa using hs.2.2
    have h4 : pathsGen a b (.str s) = pathsBodyGen a b false false 0 (-1) := by
      simp only [pathsGen, h1, h2, h3, Bool.or_false]
    rw [h4]
    exact pathsBodyGen_range its env hE v lx 0 (-1) 0
  | int z =>
    simp only [LenArg.range, Option.some.injEq, Prod.mk.injEq] at hr
    obtain ⟨rfl, rfl⟩ := hr
    exact pathsBodyGen_range its env hE v lx z z 0
  | list l =>
    cases l with
    | nil => simp [LenArg.range] at hr
    | cons x xs =>
      simp only [LenArg.range, Option.some.injEq, Prod.mk.injEq] at hr
      obtain ⟨rfl, rfl⟩ := hr
      exact pathsBodyGen_range its env hE v lx _ _ 0
  | other => simp [LenArg.range] at hr

/-- **C111, extremal modes.** The shortest (`'min'`) and the longest (`'max'`, `'timegeo'`) paths are those at the time of the first step, whatever the program does afterwards. -/
theorem C111_extremal (its : ℕ → Iter) (env : ℕ → Heap → Heap) (v : h.Valid) (lx : h.LinksExact) (a b : EId) :
    (∃ ps g, (pathsGen a b (.str "min")).run its env 0 h = (ps, none, g) ∧ ps.Nodup ∧
      ∀ q, q ∈ ps ↔ LinkPath h.Lt a b q ∧ ∀ q', LinkPath h.Lt a b q' → q.length ≤ q'.length) ∧
    ∀ s, s = "max" ∨ s = "timegeo" → ∃ ps g, (pathsGen a b (.str s)).run its env 0 h = (ps, none, g) ∧ ps.Nodup ∧
      ∀ q, q ∈ ps ↔ LinkPath h.Lt a b q ∧ ∀ q', LinkPath h.Lt a b q' → q'.length ≤ q.length := by
  refine ⟨?_, ?_⟩
  · obtain ⟨ps, e1, hn, hps⟩ := (C34_min (its 0) v a b h (SameOrder.refl h) lx).1
    obtain ⟨k1, k2⟩ := pathsBodyGen_extremal its env a b true false rfl 0 (-1) 0 h ps e1
    exact ⟨ps, _, Prod.ext k1 (Prod.ext k2 rfl), hn, hps⟩
  · intro s hs
    obtain ⟨ps, e1, hn, hps⟩ := (C34_max (its 0) v a b s hs h (SameOrder.refl h) lx).1
    have h4 : paths (its 0) a b (.str s) = pathsBody (its 0) a b false true 0 (-1) := by rcases hs with rfl | rfl <;> rfl
    have h5 : pathsGen a b (.str s) = pathsBodyGen a b false true 0 (-1) := by rcases hs with rfl | rfl <;> rfl
    rw [h4] at e1
    rw [h5]
    obtain ⟨k1, k2⟩ := pathsBodyGen_extremal its env a b false true rfl 0 (-1) 0 h ps e1
    exact ⟨ps, _, Prod.ext k1 (Prod.ext k2 rfl), hn, hps⟩

/-- **C111, exceptions** for a bad `length` come with the first step, before any path. -/
theorem C111_errors (its : ℕ → Iter) (env : ℕ → Heap → Heap) (n : ℕ) (g : Heap) (a b : EId) :
    (pathsGen a b .other).run its env n g = ([], some .valueError, g) ∧ (pathsGen a b (.list [])).run its env n g = ([], some .indexError, g) := ⟨rfl, rfl⟩

/-! ## what leaves an interval alone -/

/-- **C111, what is allowed in between: links.** Everything that only computes or forgets links. -/
theorem C111_links {a b : EId} {g g' : Heap} (u : Undisturbed h a b g) (so : g.SameOrder g') (lx : g'.LinksExact) : Undisturbed h a b g' :=
  u.sameOrder so lx

/-- **C111, what is allowed in between: new events** that are not between `a` and `b`, so that no event of the past of the new one is in the future of `a`, or none of its future in the past of `b`. -/
theorem C111_new {a b : EId} {g : Heap} (u : Undisturbed h a b g) (it : Iter) (l : Option Label) (P F : List EId) (hP : ∀ p ∈ P, g.Exists p) (hF : ∀ f ∈ F, g.Exists f)
    (hs : ∀ p ∈ P, ∀ f ∈ F, g.Lt p f) (ha : g.Exists a) (hb : g.Exists b)
    (hout : (∀ p ∈ P, ¬ (a = p ∨ g.Lt a p)) ∨ (∀ f ∈ F, ¬ (f = b ∨ g.Lt f b))) : Undisturbed h a b (g.newEvent it l P F).2 := by
  have hlt := newEvent_lt it g u.valid l P F hP hF
  have hna : a ≠ g.next := Nat.ne_of_lt ha
  have hnb : b ≠ g.next := Nat.ne_of_lt hb
  have nx : ∀ c, ¬ g.Lt g.next c := fun c hh => absurd (u.valid.exists_of_lt _ _ hh).1 (lt_irrefl _)
  have nx' : ∀ c, ¬ g.Lt c g.next := fun c hh => absurd (u.valid.exists_of_lt _ _ hh).2 (lt_irrefl _)
  have e1 : ∀ y, y ≠ g.next → ∀ z, z ≠ g.next → ((g.newEvent it l P F).2.Lt y z ↔ g.Lt y z) := by
    intro y hy z hz
    rw [hlt]
    constructor
    · rintro (h1 | ⟨h1, -⟩ | ⟨h1, -⟩)
      · exact h1
      · exact absurd h1 hz
      · exact absurd h1 hy
    · exact Or.inl
  refine ⟨newEvent_valid it g u.valid l P F hP hF hs, newEvent_linksExact it g u.valid u.links l P F hP hF hs, fun x => ?_, fun x y hx1 hx2 hy1 hy2 => ?_⟩
  · rw [← u.between x]
    by_cases hx : x = g.next
    · subst hx
      constructor
      · rintro ⟨h1, h2⟩
        exfalso
        rcases h1 with h1 | h1
        · exact hna h1
        rcases h2 with h2 | h2
        · exact hnb h2.symm
        have k1 : ∃ p ∈ P, a = p ∨ g.Lt a p := by
          rcases (hlt _ _).1 h1 with k | k | k
          · exact absurd k (nx' _)
          · exact k.2
          · exact absurd k.1 hna
        have k2 : ∃ f ∈ F, b = f ∨ g.Lt f b := by
          rcases (hlt _ _).1 h2 with k | k | k
          · exact absurd k (nx _)
          · exact absurd k.1 hnb
          · exact k.2
        obtain ⟨p, hp, hp'⟩ := k1
        obtain ⟨f, hf, hf'⟩ := k2
        rcases hout with ho | ho
        · exact ho p hp hp'
        · exact ho f hf (hf'.imp Eq.symm id)
      · rintro ⟨h1, h2⟩
        rcases h1 with h1 | h1
        · exact absurd h1 hna
        · exact absurd h1 (nx' _)
    · rw [e1 a hna x hx, e1 x hx b hnb]
  · have ne : ∀ z, (a = z ∨ h.Lt a z) → (z = b ∨ h.Lt z b) → z ≠ g.next := by
      rintro z k1 k2 rfl
      obtain ⟨m1, m2⟩ := (u.between _).2 ⟨k1, k2⟩
      rcases m1 with m1 | m1
      · exact hna m1
      · exact nx' _ m1
    rw [e1 x (ne x hx1 hx2) y (ne y hy1 hy2)]
    exact u.order x y hx1 hx2 hy1 hy2

/-! ## the eager model -/

section eager

variable (it : Iter) (b : EId) (bL : Finset EId) (mn mx : ℤ)

theorem pathsFindGen_eager : ∀ (fuel : ℕ) (path : List EId) (x : EId) (l : ℤ) (k : Gen (List EId)) (n : ℕ) (g : Heap),
    (∀ ys mn' mx' g', (pathsFind it b bL false false fuel path x l mn mx).run g = (.ok (ys, mn', mx'), g') →
      (mn' = mn ∧ mx' = mx) ∧ ∃ n', (pathsFindGen b bL mn mx fuel path x l k).run (fun _ => it) (fun _ => id) n g =
        (ys ++ (k.run (fun _ => it) (fun _ => id) n' g').1, (k.run (fun _ => it) (fun _ => id) n' g').2)) ∧
    (∀ e g', (pathsFind it b bL false false fuel path x l mn mx).run g = (.error e, g') →
      ((pathsFindGen b bL mn mx fuel path x l k).run (fun _ => it) (fun _ => id) n g).2.1 = some e) := by
  intro fuel
  induction fuel with
  | zero =>
    intro path x l k n g
    refine ⟨fun ys mn' mx' g' hr => ?_, fun e g' hr => ?_⟩
    · have := congrArg Prod.fst hr
      exact nomatch this
    · have := congrArg Prod.fst hr
      injection this with this
      rw [← this]; rfl
  | succ fuel ih =>
    intro path x l k n g
    -- the loop
    have hloop : ∀ (L : List EId) (k : Gen (List EId)) (n : ℕ) (g : Heap),
        (∀ ys mn' mx' g', (pathsLoop (fun e mn mx => pathsFind it b bL false false fuel (path ++ [e]) e (l + 1) mn mx) L mn mx).run g = (.ok (ys, mn', mx'), g') →
          (mn' = mn ∧ mx' = mx) ∧ ∃ n', (L.foldr (fun e k => pathsFindGen b bL mn mx fuel (path ++ [e]) e (l + 1) k) k).run (fun _ => it) (fun _ => id) n g =
            (ys ++ (k.run (fun _ => it) (fun _ => id) n' g').1, (k.run (fun _ => it) (fun _ => id) n' g').2)) ∧
        (∀ e g', (pathsLoop (fun e mn mx => pathsFind it b bL false false fuel (path ++ [e]) e (l + 1) mn mx) L mn mx).run g = (.error e, g') →
          ((L.foldr (fun e k => pathsFindGen b bL mn mx fuel (path ++ [e]) e (l + 1) k) k).run (fun _ => it) (fun _ => id) n g).2.1 = some e) := by
      intro L
      induction L with
      | nil =>
        intro k n g
        refine ⟨fun ys mn' mx' g' hr => ?_, fun e g' hr => ?_⟩
        · injection hr with h1 h2
          injection h1 with h1
          injection h1 with h1 h3
          injection h3 with h3 h4
          subst h1 h2 h3 h4
          exact ⟨⟨rfl, rfl⟩, n, rfl⟩
        · have := congrArg Prod.fst hr
          exact nomatch this
      | cons e es ihL =>
        intro k n g
        obtain ⟨i1, i2⟩ := ih (path ++ [e]) e (l + 1) (es.foldr (fun e k => pathsFindGen b bL mn mx fuel (path ++ [e]) e (l + 1) k) k) n g
        have step : (pathsLoop (fun e mn mx => pathsFind it b bL false false fuel (path ++ [e]) e (l + 1) mn mx) (e :: es) mn mx).run g =
          (match ((pathsFind it b bL false false fuel (path ++ [e]) e (l + 1) mn mx).run g).1 with
            | .error x => pure (.error x)
            | .ok (ps, mn1, mx1) => do
              match ← pathsLoop (fun e mn mx => pathsFind it b bL false false fuel (path ++ [e]) e (l + 1) mn mx) es mn1 mx1 with
              | .error x => pure (.error x)
              | .ok (qs, mn2, mx2) => pure (.ok (ps ++ qs, mn2, mx2)) : StateM Heap (Except Err PathsOut)).run
            ((pathsFind it b bL false false fuel (path ++ [e]) e (l + 1) mn mx).run g).2 := rfl
        rw [step]
        match hr1 : (pathsFind it b bL false false fuel (path ++ [e]) e (l + 1) mn mx).run g with
        | (.error x, g1) =>
          refine ⟨fun ys mn' mx' g' hr => ?_, fun e' g' hr => ?_⟩
          · have := congrArg Prod.fst hr
            exact nomatch this
          · have := congrArg Prod.fst hr
            injection this with this
            rw [List.foldr_cons, ← this]
            exact i2 x g1 hr1
        | (.ok (ps, mn1, mx1), g1) =>
          obtain ⟨⟨rfl, rfl⟩, n1, e1⟩ := i1 ps mn1 mx1 g1 hr1
          obtain ⟨j1, j2⟩ := ihL k n1 g1
          rw [List.foldr_cons, e1]
          have step2 : ((do
              match ← pathsLoop (fun e mn mx => pathsFind it b bL false false fuel (path ++ [e]) e (l + 1) mn mx) es mn1 mx1 with
              | .error x => pure (.error x)
              | .ok (qs, mn2, mx2) => pure (.ok (ps ++ qs, mn2, mx2)) : StateM Heap (Except Err PathsOut)).run g1) =
            (match ((pathsLoop (fun e mn mx => pathsFind it b bL false false fuel (path ++ [e]) e (l + 1) mn mx) es mn1 mx1).run g1).1 with
              | .error x => pure (.error x)
              | .ok (qs, mn2, mx2) => pure (.ok (ps ++ qs, mn2, mx2)) : StateM Heap (Except Err PathsOut)).run
              ((pathsLoop (fun e mn mx => pathsFind it b bL false false fuel (path ++ [e]) e (l + 1) mn mx) es mn1 mx1).run g1).2 := rfl
          dsimp only
          rw [step2]
          match hr2 : (pathsLoop (fun e mn mx => pathsFind it b bL false false fuel (path ++ [e]) e (l + 1) mn mx) es mn1 mx1).run g1 with
          | (.error x, g2) =>
            refine ⟨fun ys mn' mx' g' hr => ?_, fun e' g' hr => ?_⟩
            · have := congrArg Prod.fst hr
              exact nomatch this
            · have := congrArg Prod.fst hr
              injection this with this
              rw [← this]
              exact j2 x g2 hr2
          | (.ok (qs, mn2, mx2), g2) =>
            obtain ⟨⟨h3, h4⟩, n2, e2⟩ := j1 qs mn2 mx2 g2 hr2
            refine ⟨fun ys mn' mx' g' hr => ?_, fun e' g' hr => ?_⟩
            · injection hr with h1 h2
              injection h1 with h1
              injection h1 with h1 h5
              injection h5 with h5 h6
              subst h1 h2
              refine ⟨⟨h5.symm.trans h3, h6.symm.trans h4⟩, n2, ?_⟩
              rw [e2, List.append_assoc]
            · have := congrArg Prod.fst hr
              exact nomatch this
    -- the step
    generalize hg1 : ((linkFuture x).run g).2 = g1
    generalize haL : ((linkFuture x).run g).1 ∩ g1.past b = aL
    have estep : (pathsFind it b bL false false (fuel + 1) path x l mn mx).run g =
        (if l = mx then (.ok (if mn ≤ l ∧ (aL ∩ bL).card > 0 then (it.ord (0 :: path) (aL ∩ bL)).map (fun e => path ++ [e, b]) else [], mn, mx), g1)
        else match (pathsLoop (fun e mn mx => pathsFind it b bL false false fuel (path ++ [e]) e (l + 1) mn mx) (it.ord (1 :: path) (aL \ (aL ∩ bL))) mn mx).run g1 with
          | (.error x, g2) => (.error x, g2)
          | (.ok (qs, mn2, mx2), g2) => (.ok ((if mn ≤ l ∧ (aL ∩ bL).card > 0 then (it.ord (0 :: path) (aL ∩ bL)).map (fun e => path ++ [e, b]) else []) ++ qs, mn2, mx2), g2)) := by
      subst hg1
      subst haL
      rw [pathsFind]
      simp only [Bool.not_false, Bool.true_or, Bool.and_true, Bool.and_false, Bool.false_eq_true, if_false, Bool.and_eq_true, decide_eq_true_eq]
      by_cases hlm : l = mx
      · simp only [if_pos hlm]
        rfl
      · simp only [if_neg hlm]
        generalize hg1 : ((linkFuture x).run g).2 = g1
        generalize haL : ((linkFuture x).run g).1 ∩ g1.past b = aL
        change (do
            let aL : Finset EId := ((linkFuture x).run g).1 ∩ ((linkFuture x).run g).2.past b
            match ← pathsLoop (fun e mn mx => pathsFind it b bL false false fuel (path ++ [e]) e (l + 1) mn mx) (it.ord (1 :: path) (aL \ (aL ∩ bL))) mn mx with
            | .error x => pure (.error x)
            | .ok (qs, mn2, mx2) => pure (.ok ((if mn ≤ l ∧ (aL ∩ bL).card > 0 then (it.ord (0 :: path) (aL ∩ bL)).map (fun e => path ++ [e, b]) else []) ++ qs, mn2, mx2)) :
              StateM Heap (Except Err PathsOut)).run ((linkFuture x).run g).2 = _
        rw [hg1, haL]
        change (match ((pathsLoop (fun e mn mx => pathsFind it b bL false false fuel (path ++ [e]) e (l + 1) mn mx) (it.ord (1 :: path) (aL \ (aL ∩ bL))) mn mx).run g1).1 with
            | .error x => pure (.error x)
            | .ok (qs, mn2, mx2) => pure (.ok ((if mn ≤ l ∧ (aL ∩ bL).card > 0 then (it.ord (0 :: path) (aL ∩ bL)).map (fun e => path ++ [e, b]) else []) ++ qs, mn2, mx2)) :
              StateM Heap (Except Err PathsOut)).run
            ((pathsLoop (fun e mn mx => pathsFind it b bL false false fuel (path ++ [e]) e (l + 1) mn mx) (it.ord (1 :: path) (aL \ (aL ∩ bL))) mn mx).run g1).2 = _
        generalize (pathsLoop (fun e mn mx => pathsFind it b bL false false fuel (path ++ [e]) e (l + 1) mn mx) (it.ord (1 :: path) (aL \ (aL ∩ bL))) mn mx).run g1 = r
        obtain ⟨r, g2⟩ := r
        match r with
        | .error x => rfl
        | .ok (qs, mn2, mx2) => rfl
    have gstep : (pathsFindGen b bL mn mx (fuel + 1) path x l k).run (fun _ => it) (fun _ => id) n g =
        (if mn ≤ l ∧ (aL ∩ bL).card > 0 then
          Gen.yieldAll ((it.ord (0 :: path) (aL ∩ bL)).map (fun e => path ++ [e, b])) (if l = mx then k else
            (it.ord (1 :: path) (aL \ (aL ∩ bL))).foldr (fun e k => pathsFindGen b bL mn mx fuel (path ++ [e]) e (l + 1) k) k)
        else (if l = mx then k else
            (it.ord (1 :: path) (aL \ (aL ∩ bL))).foldr (fun e k => pathsFindGen b bL mn mx fuel (path ++ [e]) e (l + 1) k) k)).run (fun _ => it) (fun _ => id) n g1 := by
      subst hg1
      subst haL
      rw [pathsFindGen]
      rfl
    have hy : ∃ n1, (pathsFindGen b bL mn mx (fuel + 1) path x l k).run (fun _ => it) (fun _ => id) n g =
        ((if mn ≤ l ∧ (aL ∩ bL).card > 0 then (it.ord (0 :: path) (aL ∩ bL)).map (fun e => path ++ [e, b]) else []) ++
          ((if l = mx then k else
            (it.ord (1 :: path) (aL \ (aL ∩ bL))).foldr (fun e k => pathsFindGen b bL mn mx fuel (path ++ [e]) e (l + 1) k) k).run (fun _ => it) (fun _ => id) n1 g1).1,
          ((if l = mx then k else
            (it.ord (1 :: path) (aL \ (aL ∩ bL))).foldr (fun e k => pathsFindGen b bL mn mx fuel (path ++ [e]) e (l + 1) k) k).run (fun _ => it) (fun _ => id) n1 g1).2) := by
      rw [gstep]
      split
      · obtain ⟨n1, g2, rfl, e2⟩ := run_yieldAll (fun _ => it) (fun _ => id) (fun g => g = g1) (fun _ _ hg => hg) (if l = mx then k else
            (it.ord (1 :: path) (aL \ (aL ∩ bL))).foldr (fun e k => pathsFindGen b bL mn mx fuel (path ++ [e]) e (l + 1) k) k)
            ((it.ord (0 :: path) (aL ∩ bL)).map (fun e => path ++ [e, b])) n g1 rfl
        exact ⟨n1, e2⟩
      · exact ⟨n, rfl⟩
    obtain ⟨n1, hy⟩ := hy
    rw [estep, hy]
    by_cases hlm : l = mx
    · simp only [if_pos hlm]
      refine ⟨fun ys mn' mx' g' hr => ?_, fun e g' hr => ?_⟩
      · injection hr with h1 h2
        injection h1 with h1
        injection h1 with h1 h3
        injection h3 with h3 h4
        subst h1 h2 h3 h4
        exact ⟨⟨rfl, rfl⟩, n1, rfl⟩
      · have := congrArg Prod.fst hr
        exact nomatch this
    · simp only [if_neg hlm]
      obtain ⟨j1, j2⟩ := hloop (it.ord (1 :: path) (aL \ (aL ∩ bL))) k n1 g1
      match hr2 : (pathsLoop (fun e mn mx => pathsFind it b bL false false fuel (path ++ [e]) e (l + 1) mn mx) (it.ord (1 :: path) (aL \ (aL ∩ bL))) mn mx).run g1 with
      | (.error x, g2) =>
        refine ⟨fun ys mn' mx' g' hr => ?_, fun e' g' hr => ?_⟩
        · have := congrArg Prod.fst hr
          exact nomatch this
        · have := congrArg Prod.fst hr
          injection this with this
          rw [← this]
          exact j2 x g2 hr2
      | (.ok (qs, mn2, mx2), g2) =>
        obtain ⟨⟨h3, h4⟩, n2, e2⟩ := j1 qs mn2 mx2 g2 hr2
        refine ⟨fun ys mn' mx' g' hr => ?_, fun e' g' hr => ?_⟩
        · injection hr with h1 h2
          injection h1 with h1
          injection h1 with h1 h5
          injection h5 with h5 h6
          subst h1 h2
          refine ⟨⟨h5.symm.trans h3, h6.symm.trans h4⟩, n2, ?_⟩
          rw [e2, List.append_assoc]
        · have := congrArg Prod.fst hr
          exact nomatch this

end eager

theorem outcome_congr {α : Type} {r r' r'' : Except Err α} {P : α → Prop} {Q : Err → Prop} (h0 : r'' = r) (h1 : r = r') (h2 : (∀ x, r' = .ok x → P x) ∧ (∀ e, r' = .error e → Q e)) :
    (∀ x, r'' = .ok x → P x) ∧ (∀ e, r'' = .error e → Q e) := by
  subst h0; subst h1; exact h2

theorem pathsBodyGen_eager (it : Iter) (a b : EId) (fm fx : Bool) (mn mx : ℤ) (g : Heap) :
    (∀ ps, ((pathsBody it a b fm fx mn mx).run g).1 = .ok ps →
      ((pathsBodyGen a b fm fx mn mx).run (fun _ => it) (fun _ => id) 0 g).1 = ps ∧ ((pathsBodyGen a b fm fx mn mx).run (fun _ => it) (fun _ => id) 0 g).2.1 = none) ∧
    (∀ e, ((pathsBody it a b fm fx mn mx).run g).1 = .error e → ((pathsBodyGen a b fm fx mn mx).run (fun _ => it) (fun _ => id) 0 g).2.1 = some e) := by
  have pureCase : ∀ (ps : List (List EId)), (∀ ps', (Except.ok ps : Except Err _) = .ok ps' → ((Gen.yieldAll ps .done).run (fun _ => it) (fun _ => id) 0 g).1 = ps' ∧
      ((Gen.yieldAll ps .done).run (fun _ => it) (fun _ => id) 0 g).2.1 = none) ∧
      (∀ e, (Except.ok ps : Except Err (List (List EId))) = .error e → ((Gen.yieldAll ps .done).run (fun _ => it) (fun _ => id) 0 g).2.1 = some e) := by
    intro ps
    refine ⟨fun ps' hps => ?_, fun e he => nomatch he⟩
    injection hps with hps
    rw [← hps]
    exact run_yieldAll_done _ _ ps 0 g
  unfold pathsBodyGen pathsBody
  rw [run_query]
  change (∀ ps, ((if (!g.le a b) = true then _ else _ : StateM Heap (Except Err (List (List EId)))).run g).1 = _ →
    (Gen.run (fun _ => it) (fun _ => id) 0 (if (!g.le a b) = true then Gen.done else _) g).1 = _ ∧ (Gen.run (fun _ => it) (fun _ => id) 0 (if (!g.le a b) = true then Gen.done else _) g).2.1 = _) ∧
    (∀ e, ((if (!g.le a b) = true then _ else _ : StateM Heap (Except Err (List (List EId)))).run g).1 = _ →
    (Gen.run (fun _ => it) (fun _ => id) 0 (if (!g.le a b) = true then Gen.done else _) g).2.1 = _)
  by_cases hc : (!g.le a b) = true
  · simp only [if_pos hc]
    exact pureCase []
  simp only [if_neg hc]
  by_cases heq : a = b
  · simp only [if_pos heq]
    exact pureCase _
  simp only [if_neg heq]
  rw [run_query]
  change (∀ ps, ((if ((isFutureLink a b).run g).1 = true then _ else _ : StateM Heap (Except Err (List (List EId)))).run ((isFutureLink a b).run g).2).1 = _ → _) ∧
    (∀ e, ((if ((isFutureLink a b).run g).1 = true then _ else _ : StateM Heap (Except Err (List (List EId)))).run ((isFutureLink a b).run g).2).1 = _ → _)
  generalize hg2 : (isFutureLink a b).run g = r2
  obtain ⟨bl, g2⟩ := r2
  dsimp only
  by_cases hl : bl = true
  · simp only [if_pos hl]
    refine ⟨fun ps' hps => ?_, fun e he => nomatch he⟩
    injection hps with hps
    rw [← hps]
    exact run_yieldAll_done _ _ _ 0 g2
  simp only [if_neg hl]
  by_cases hm : 3 ≤ mx ∨ mx = -1
  swap
  · simp only [if_neg hm]
    refine ⟨fun ps' hps => ?_, fun e he => nomatch he⟩
    injection hps with hps
    rw [← hps]
    exact ⟨rfl, rfl⟩
  simp only [if_pos hm]
  rw [run_query]
  generalize hg3 : ((linkPast b).run g2).2 = g3
  generalize hbL : g3.future a ∩ ((linkPast b).run g2).1 = bL
  have e1 : ((do let lp ← linkPast b; pure ((← MonadState.get).future a ∩ lp, (← MonadState.get).next) : StateM Heap (Finset EId × ℕ)).run g2) = ((bL, g3.next), g3) := by
    subst hbL; subst hg3; rfl
  rw [e1]
  dsimp only
  have e2 : ((do
        let lp ← linkPast b
        match ← pathsFind it b ((← MonadState.get).future a ∩ lp) fm fx ((← MonadState.get).next + 1) [a] a 3 mn mx with
        | .error x => pure (.error x)
        | .ok (ps, mn', mx') =>
          if (fm || fx) = true then
            if fm = true then pure (.ok (ps.filter (fun p => ((p.length : ℕ) : ℤ) = mx')))
            else pure (.ok (ps.filter (fun p => ((p.length : ℕ) : ℤ) = mn')))
          else pure (.ok ps) : StateM Heap (Except Err (List (List EId)))).run g2).1 =
      (match ((pathsFind it b bL fm fx (g3.next + 1) [a] a 3 mn mx).run g3).1 with
        | .error x => .error x
        | .ok (ps, mn', mx') =>
          .ok (if (fm || fx) = true then
            if fm = true then (ps.filter (fun p => ((p.length : ℕ) : ℤ) = mx'))
            else (ps.filter (fun p => ((p.length : ℕ) : ℤ) = mn'))
          else ps)) := by
    subst hbL; subst hg3
    change ((match ((pathsFind it b (((linkPast b).run g2).2.future a ∩ ((linkPast b).run g2).1) fm fx (((linkPast b).run g2).2.next + 1) [a] a 3 mn mx).run ((linkPast b).run g2).2).1 with
        | .error x => pure (.error x)
        | .ok (ps, mn', mx') =>
          if (fm || fx) = true then
            if fm = true then pure (.ok (ps.filter (fun p => ((p.length : ℕ) : ℤ) = mx')))
            else pure (.ok (ps.filter (fun p => ((p.length : ℕ) : ℤ) = mn')))
          else pure (.ok ps) : StateM Heap (Except Err (List (List EId)))).run _).1 = _
    match ((pathsFind it b (((linkPast b).run g2).2.future a ∩ ((linkPast b).run g2).1) fm fx (((linkPast b).run g2).2.next + 1) [a] a 3 mn mx).run ((linkPast b).run g2).2).1 with
    | .error x => rfl
    | .ok (ps, mn', mx') =>
      dsimp only
      cases fm <;> cases fx <;> rfl
  refine outcome_congr ?_ e2 ?_
  · rfl
  by_cases hfx : (fm || fx) = true
  · simp only [if_pos hfx]
    rw [run_query]
    generalize (pathsFind it b bL fm fx (g3.next + 1) [a] a 3 mn mx).run g3 = r
    obtain ⟨r, g4⟩ := r
    match r with
    | .error x =>
      refine ⟨fun ps hps => (nomatch hps), fun e he => ?_⟩
      injection he with he
      rw [← he]; rfl
    | .ok (ps, mn', mx') =>
      dsimp only
      refine ⟨fun ps' hps => ?_, fun e he => nomatch he⟩
      injection hps with hps
      have : ps.filter (fun p => ((p.length : ℕ) : ℤ) = if fm = true then mx' else mn') = ps' := by
        rw [← hps]
        cases fm <;> rfl
      rw [this]
      exact run_yieldAll_done _ _ _ 0 g4
  · simp only [if_neg hfx]
    have hf : fm = false ∧ fx = false := by cases fm <;> cases fx <;> simp at hfx ⊢
    obtain ⟨rfl, rfl⟩ := hf
    obtain ⟨i1, i2⟩ := pathsFindGen_eager it b bL mn mx (g3.next + 1) [a] a 3 .done 0 g3
    match hr : (pathsFind it b bL false false (g3.next + 1) [a] a 3 mn mx).run g3 with
    | (.error x, g4) =>
      refine ⟨fun ps hps => (nomatch hps), fun e he => ?_⟩
      injection he with he
      rw [← he]
      exact i2 x g4 hr
    | (.ok (ps, mn', mx'), g4) =>
      dsimp only
      refine ⟨fun ps' hps => ?_, fun e he => nomatch he⟩
      injection hps with hps
      obtain ⟨-, n', e3⟩ := i1 ps mn' mx' g4 hr
      rw [e3, ← hps]
      simp [Gen.run]

/-- **C111, one go.** Taken at once (no action in between, one set order), the generator yields the list of the eager model of `Paths` (`Model/CausetLinks.lean`), or raises the same exception. -/
theorem C111_eager (it : Iter) (a b : EId) (arg : LenArg) (g : Heap) :
    (∀ ps, ((paths it a b arg).run g).1 = .ok ps →
      ((pathsGen a b arg).run (fun _ => it) (fun _ => id) 0 g).1 = ps ∧ ((pathsGen a b arg).run (fun _ => it) (fun _ => id) 0 g).2.1 = none) ∧
    (∀ e, ((paths it a b arg).run g).1 = .error e → ((pathsGen a b arg).run (fun _ => it) (fun _ => id) 0 g).2.1 = some e) := by
  cases arg with
  | str s => exact pathsBodyGen_eager it a b _ _ 0 (-1) g
  | int z => exact pathsBodyGen_eager it a b _ _ z z g
  | list l =>
    cases l with
    | nil =>
      refine ⟨fun ps hp => (nomatch hp), fun e he => ?_⟩
      injection he with he
      rw [← he]; rfl
    | cons x xs => exact pathsBodyGen_eager it a b _ _ _ _ g
  | other =>
    refine ⟨fun ps hp => (nomatch hp), fun e he => ?_⟩
    injection he with he
    rw [← he]; rfl

/-! ## `Antipaths` -/

theorem antipathsFindGen_run (its : ℕ → Iter) (env : ℕ → Heap → Heap) (D : DMat) (l b : ℕ) (pre : List ℕ → List EId) :
    ∀ (fuel e : ℕ) (front : List ℕ) (k : Gen (List EId)) (ps : List (List ℕ)) (n : ℕ) (g : Heap), antipathsFind D l b fuel e = .ok ps →
    ∃ n' g', (antipathsFindGen D l b pre fuel e front k).run its env n g = (ps.map (fun p => pre (front ++ p)) ++ (k.run its env n' g').1, (k.run its env n' g').2) := by
  intro fuel
  induction fuel with
  | zero => intro e front k ps n g hp; exact nomatch hp
  | succ fuel ih =>
    intro e front k ps n g hp
    rw [antipathsFind] at hp
    rw [antipathsFindGen]
    by_cases h1 : D e b = 1
    · rw [if_pos h1] at hp ⊢
      injection hp with hp
      subst hp
      exact ⟨n + 1, env n g, rfl⟩
    rw [if_neg h1] at hp ⊢
    split at hp
    · exact nomatch hp
    next near hnear =>
    dsimp only at hp
    split at hp
    · exact nomatch hp
    next close hclose =>
    rw [hnear]
    dsimp only
    rw [hclose]
    dsimp only
    have hL : ∀ (L : List ℕ) (pss : List (List (List ℕ))) (n : ℕ) (g : Heap), L.mapM (antipathsFind D l b fuel) = .ok pss →
        ∃ n' g', (L.foldr (fun m k => antipathsFindGen D l b pre fuel m (front ++ [e]) k) k).run its env n g =
          (pss.flatten.map (fun p => pre (front ++ [e] ++ p)) ++ (k.run its env n' g').1, (k.run its env n' g').2) := by
      intro L
      induction L with
      | nil =>
        intro pss n g hm
        injection hm with hm
        subst hm
        exact ⟨n, g, rfl⟩
      | cons m L ihL =>
        intro pss n g hm
        rw [List.mapM_cons] at hm
        match h2 : antipathsFind D l b fuel m, hm with
        | .error x, hm => exact nomatch hm
        | .ok qs, hm =>
          match h3 : L.mapM (antipathsFind D l b fuel), hm with
          | .error x, hm => 
            have : (Except.error x : Except Err (List (List (List ℕ)))) = .ok pss := by
              simpa [bind, Except.bind, h3] using hm
            exact nomatch this
          | .ok qss, hm =>
            have : (Except.ok (qs :: qss) : Except Err (List (List (List ℕ)))) = .ok pss := by
              simpa [bind, Except.bind, pure, Except.pure, h3] using hm
            injection this with this
            subst this
            obtain ⟨n1, g1, e1⟩ := ih m (front ++ [e]) (L.foldr (fun m k => antipathsFindGen D l b pre fuel m (front ++ [e]) k) k) qs n g h2
            obtain ⟨n2, g2, e2⟩ := ihL qss n1 g1 h3
            refine ⟨n2, g2, ?_⟩
            rw [List.foldr_cons, e1, e2]
            simp
    split at hp
    · exact nomatch hp
    next pss hpss =>
    injection hp with hp
    subst hp
    obtain ⟨n', g', e1⟩ := hL _ pss n g hpss
    refine ⟨n', g', ?_⟩
    rw [e1, List.map_map]
    simp
    rfl

/-- **C111, antipaths.** `Antipaths` decides at its first step what it yields: whatever happens in between, the program gets the list of the eager model (about which C42, C43 and C92 speak) as of the first step. -/
theorem C111_antipaths (its : ℕ → Iter) (env : ℕ → Heap → Heap) (g : Heap) (C : Finset EId) (depth : ℕ) (a b : EId) (along : List EId) (distances : Option DMat) (ps : List (List EId))
    (hp : g.antipaths (its 0) C depth a b along distances = .ok ps) :
    ∃ g', (antipathsGen C depth a b along distances).run its env 0 g = (ps, none, g') := by
  unfold Heap.antipaths at hp
  unfold antipathsGen
  dsimp only
  by_cases h1 : a = b ∧ a ∈ along
  · rw [if_pos h1] at hp ⊢
    injection hp with hp
    obtain ⟨rfl, h2⟩ := h1
    refine ⟨env 0 g, ?_⟩
    have hs : (env 0 g).isSpacelikeTo a a = false := by simp [Heap.isSpacelikeTo, Heap.le]
    simp only [Gen.run, hs, Bool.false_eq_true, false_and, not_false_eq_true, if_true, hp]
  · rw [if_neg h1] at hp ⊢
    simp only [Gen.run]
    by_cases h2 : ¬ (g.isSpacelikeTo a b = true ∧ a ∈ along ∧ b ∈ along)
    · rw [if_pos h2] at hp ⊢
      injection hp with hp
      exact ⟨g, by rw [← hp]; rfl⟩
    rw [if_neg h2] at hp ⊢
    have hD : ∃ D, (match distances with
        | some D => Except.ok D
        | none => g.distanceMatrix (its 0) C along "ziczac" true) = .ok D := by
      split at hp
      · exact nomatch hp
      · next D hD => exact ⟨D, hD⟩
    obtain ⟨D, hD⟩ := hD
    have hp : (match (Except.ok D : Except Err DMat) with
      | .error x => (Except.error x : Except Err (List (List EId)))
      | .ok D => if D (along.idxOf a) (along.idxOf b) = -1 then .ok []
        else
        match antipathsFind D along.length (along.idxOf b) depth (along.idxOf a) with
        | .error x => .error x
        | .ok ps => .ok (ps.map (fun p => List.map (fun i => along.getD i 0) p))) = .ok ps := by
      rw [← hD]; exact hp
    suffices hs : ∃ g', Gen.run its env 0 (match (Except.ok D : Except Err DMat) with
      | .error x => Gen.raise x
      | .ok D =>
        if D (along.idxOf a) (along.idxOf b) = -1 then .done
        else antipathsFindGen D along.length (along.idxOf b) (fun p => p.map (fun i => along.getD i 0)) depth (along.idxOf a) [] .done) g = (ps, none, g') by
      rw [← hD] at hs; exact hs
    dsimp only at hp ⊢
    by_cases h3 : D (along.idxOf a) (along.idxOf b) = -1
    · simp only [h3, if_true] at hp ⊢
      injection hp with hp
      exact ⟨g, by rw [← hp]; rfl⟩
    simp only [h3, if_false] at hp ⊢
    split at hp
    · exact nomatch hp
    next qs hqs =>
    injection hp with hp
    obtain ⟨n', g', e1⟩ := antipathsFindGen_run its env D along.length (along.idxOf b) (fun p => p.map (fun i => along.getD i 0)) depth (along.idxOf a) [] .done qs 0 g hqs
    refine ⟨g', ?_⟩
    rw [e1, ← hp]
    simp [Gen.run]

/-! ## cases -/

/-- after the first path a new event is put to the future of the top of the diamond -/
def exEnv : ℕ → Heap → Heap
  | 0, g => if g.next = 4 ∧ g.Exists 3 then (g.newEvent Iter.asc none [3] []).2 else g
  | _, g => g

/-- the paths of the diamond, with a new event put between 2 and 3 after the first path -/
def exEnvBad : ℕ → Heap → Heap
  | 0, g => (g.newEvent Iter.asc none [2] [3]).2
  | _, g => g

/-- **C111, a case**: the diamond, whose top gets a new successor between the two steps; the hypothesis on the program holds and both paths are yielded. -/
theorem C111_case : LinkReachable exDiamond ∧ (∀ n g, Undisturbed exDiamond 0 3 g → Undisturbed exDiamond 0 3 (exEnv n g)) ∧
    ((pathsGen 0 3 (.str "any")).run (fun _ => Iter.asc) exEnv 0 exDiamond).1 = [[0, 1, 3], [0, 2, 3]] ∧
    ((pathsGen 0 3 (.str "any")).run (fun n => if n = 0 then Iter.desc else Iter.asc) exEnv 0 exDiamond).1 = [[0, 2, 3], [0, 1, 3]] ∧
    ((pathsGen 0 3 (.str "any")).run (fun _ => Iter.asc) exEnv 0 exDiamond).2.2.next = 5 := by
  refine ⟨exDiamond_reach, ?_, by decide +kernel, by decide +kernel, by decide +kernel⟩
  intro n g u
  match n with
  | 0 =>
    simp only [exEnv]
    split
    · next hc =>
      have h0 : g.Exists 0 := by simp only [Heap.Exists, hc.1]; omega
      refine C111_new u Iter.asc none [3] [] (by simpa using hc.2) (by simp) (by simp) h0 hc.2 (Or.inr (by simp))
    · exact u
  | n + 1 => exact u

/-- **C111, the proviso is needed.** If the program puts an event between `a` and `b` while it goes through the paths, it gets paths that are no longer paths of links and misses those that now are: of the diamond it
gets `[0, 2, 3]` after the event 4 has been put between 2 and 3, and never `[0, 2, 4, 3]`. -/
theorem C111_proviso : LinkReachable exDiamond ∧
    ((pathsGen 0 3 (.str "any")).run (fun _ => Iter.asc) exEnvBad 0 exDiamond).1 = [[0, 1, 3], [0, 2, 3]] ∧
    ((pathsGen 0 3 (.str "any")).run (fun _ => Iter.asc) exEnvBad 0 exDiamond).2.1 = none ∧
    (exDiamond.newEvent Iter.asc none [2] [3]).2.Valid ∧
    ¬ LinkPath (exDiamond.newEvent Iter.asc none [2] [3]).2.Lt 0 3 [0, 2, 3] ∧
    LinkPath (exDiamond.newEvent Iter.asc none [2] [3]).2.Lt 0 3 [0, 2, 4, 3] := by
  have v := exDiamond_reach.valid
  have hP : ∀ p ∈ [2], exDiamond.Exists p := by decide +kernel
  have hF : ∀ p ∈ [3], exDiamond.Exists p := by decide +kernel
  have hs : ∀ p ∈ [2], ∀ f ∈ [3], exDiamond.Lt p f := by decide +kernel
  have v' := newEvent_valid Iter.asc exDiamond v none [2] [3] hP hF hs
  refine ⟨exDiamond_reach, by decide +kernel, by decide +kernel, v', ?_, ?_⟩
  · rintro ⟨-, -, hc⟩
    rw [List.isChain_cons_cons, List.isChain_cons_cons] at hc
    exact hc.2.1.2 4 ⟨by decide +kernel, by decide +kernel⟩
  · have key : ∀ x y, y ∈ (exDiamond.newEvent Iter.asc none [2] [3]).2.futureLinks x → Covers (exDiamond.newEvent Iter.asc none [2] [3]).2.Lt x y :=
      fun x y hxy => (mem_futureLinks v' y x).1 hxy
    refine ⟨rfl, rfl, ?_⟩
    rw [List.isChain_cons_cons, List.isChain_cons_cons, List.isChain_cons_cons]
    exact ⟨key 0 2 (by decide +kernel), key 2 4 (by decide +kernel), key 4 3 (by decide +kernel), List.isChain_singleton _⟩

/-! # C112: a loop over a causet that changes -/

theorem setIterNext_ok {size : ℕ} {keep : EId → Bool} {C : Finset EId} {rest : List EId} (hc : C.card = size) :
    setIterNext size keep C rest = match rest.dropWhile (fun e => !keep e) with
        | [] => .ok none
        | e :: es => .ok (some (e, es)) := by
  rw [setIterNext, if_neg (by simpa using hc)]
  rfl

theorem setIterLoop_spec (size : ℕ) (env : ℕ → Finset EId × (EId → Bool)) : ∀ (fuel n : ℕ) (rest : List EId), rest.length < fuel →
    List.Sublist (setIterLoop size env fuel n rest).1 rest ∧
    ((setIterLoop size env fuel n rest).2 = none → ∀ m ≤ (setIterLoop size env fuel n rest).1.length, (env (n + m)).1.card = size) ∧
    (∀ x, (setIterLoop size env fuel n rest).2 = some x → x = .runtimeError ∧ (env (n + (setIterLoop size env fuel n rest).1.length)).1.card ≠ size ∧
      ∀ m < (setIterLoop size env fuel n rest).1.length, (env (n + m)).1.card = size) ∧
    ((setIterLoop size env fuel n rest).2 = none → ∀ e ∈ rest, (∀ m, (env m).2 e = true) → e ∈ (setIterLoop size env fuel n rest).1) ∧
    (∀ e ∈ (setIterLoop size env fuel n rest).1, ∃ m, (env m).2 e = true) := by
  intro fuel
  induction fuel with
  | zero => intro n rest hr; omega
  | succ fuel ih =>
    intro n rest hr
    rw [setIterLoop]
    by_cases hc : (env n).1.card = size
    swap
    · rw [setIterNext, if_pos hc]
      dsimp only
      refine ⟨List.nil_sublist _, fun hx => (nomatch hx), fun x hx => ?_, fun hx => (nomatch hx), by simp⟩
      injection hx with hx
      exact ⟨hx.symm, by simpa using hc, by simp⟩
    rw [setIterNext_ok hc]
    have hsplit := List.takeWhile_append_dropWhile (p := fun e => !(env n).2 e) (l := rest)
    have htake : ∀ e ∈ rest.takeWhile (fun e => !(env n).2 e), (env n).2 e = false := by
      intro e he
      have := List.all_eq_true.1 (List.all_takeWhile (p := fun e => !(env n).2 e) (l := rest)) e he
      simpa using this
    match hd : rest.dropWhile (fun e => !(env n).2 e) with
    | [] =>
      rw [hd, List.append_nil] at hsplit
      dsimp only
      refine ⟨List.nil_sublist _, ?_, fun x hx => (nomatch hx), ?_, by simp⟩
      · intro _ m hm
        have : m = 0 := by simpa using hm
        subst this
        exact hc
      intro _ e he hall
      rw [← hsplit] at he
      exact absurd (hall n) (by rw [htake e he]; simp)
    | e :: es =>
      dsimp only
      rw [hd] at hsplit
      have hlen : es.length < fuel := by
        have := congrArg List.length hsplit
        rw [List.length_append, List.length_cons] at this
        omega
      have hke : (env n).2 e = true := by
        have := List.head?_dropWhile_not (fun e => !(env n).2 e) rest
        rw [hd] at this
        simpa using this
      obtain ⟨i1, i2, i3, i4, i5⟩ := ih (n + 1) es hlen
      have shift : ∀ m, env (n + 1 + m) = env (n + (m + 1)) := fun m => by rw [Nat.add_assoc, Nat.add_comm 1 m]
      refine ⟨?_, ?_, ?_, ?_, ?_⟩
      · rw [← hsplit]
        exact (i1.cons_cons e).trans (List.sublist_append_right _ _)
      · intro hx m hm
        cases m with
        | zero => exact hc
        | succ m =>
          rw [← shift]
          exact i2 hx m (by simpa using hm)
      · intro x hx
        obtain ⟨j1, j2, j3⟩ := i3 x hx
        refine ⟨j1, ?_, ?_⟩
        · rw [List.length_cons, ← shift]; exact j2
        · intro m hm
          cases m with
          | zero => exact hc
          | succ m =>
            rw [← shift]
            exact j3 m (by simpa using hm)
      · intro hx0 x hx hall
        rw [← hsplit, List.mem_append, List.mem_cons] at hx
        rcases hx with hx | rfl | hx
        · exact absurd (hall n) (by rw [htake x hx]; simp)
        · simp
        · exact List.mem_cons_of_mem _ (i4 hx0 x hx hall)
      · intro x hx
        rcases List.mem_cons.1 hx with rfl | hx
        · exact ⟨n, hke⟩
        · exact i5 x hx

theorem setIterLoop_const (size : ℕ) (C : Finset EId) (keep : EId → Bool) (hc : C.card = size) : ∀ (fuel n : ℕ) (rest : List EId), rest.length < fuel →
    setIterLoop size (fun _ => (C, keep)) fuel n rest = (rest.filter keep, none) := by
  intro fuel
  induction fuel with
  | zero => intro n rest hr; omega
  | succ fuel ih =>
    intro n rest hr
    rw [setIterLoop, setIterNext_ok hc]
    have hsplit := List.takeWhile_append_dropWhile (p := fun e => !keep e) (l := rest)
    have htake : (rest.takeWhile (fun e => !keep e)).filter keep = [] := by
      rw [List.filter_eq_nil_iff]
      intro e he
      have := List.all_eq_true.1 (List.all_takeWhile (p := fun e => !keep e) (l := rest)) e he
      simpa using this
    match hd : rest.dropWhile (fun e => !keep e) with
    | [] =>
      rw [hd, List.append_nil] at hsplit
      dsimp only
      rw [← hsplit, htake]
    | e :: es =>
      dsimp only
      rw [hd] at hsplit
      have hlen : es.length < fuel := by
        have := congrArg List.length hsplit
        rw [List.length_append, List.length_cons] at this
        omega
      have hke : keep e = true := by
        have := List.head?_dropWhile_not (fun e => !keep e) rest
        rw [hd] at this
        simpa using this
      rw [ih (n + 1) es hlen, ← hsplit, List.filter_append, htake, List.filter_cons, if_pos hke]
      rfl

theorem ord_length (it : Iter) (c : List ℕ) (C : Finset EId) : (it.ord c C).length = C.card := by
  rw [← List.toFinset_card_of_nodup (it.nodup c C)]
  congr 1
  ext x
  rw [List.mem_toFinset, it.mem]

/-- **C112, nothing changes.** A loop over a causet (`keep` constantly true) or over `findAny(labels)` whose body leaves the causet and the labels alone goes through the events with a label in `labels`, each once: the
list of the eager model. -/
theorem C112_unchanged (it : Iter) (C : Finset EId) (keep : EId → Bool) :
    causetLoop it (fun _ => (C, keep)) = ((it.ord [376] C).filter keep, none) ∧
    ∀ (g : Heap) (ls : List (Option Label)), (∀ e, keep e = decide (g.label e ∈ ls)) → causetLoop it (fun _ => (C, keep)) = (findAny it C ls g, none) := by
  have h1 : causetLoop it (fun _ => (C, keep)) = ((it.ord [376] C).filter keep, none) := by
    unfold causetLoop
    exact setIterLoop_const _ C keep rfl _ 0 _ (by rw [ord_length]; omega)
  refine ⟨h1, fun g ls hk => ?_⟩
  rw [h1, findAny]
  congr 2
  funext e
  exact hk e

/-- **C112, the loop body changes the causet.** Let `env n` be the causet and the labels when the loop asks for its next event after `n` rounds.  The loop never gets an event twice, nor one that was not in the causet at the
start or whose label never was among the requested ones.  If it ends without an exception, then the number of events was the same at all steps, and no event that always had a requested label was skipped.
The only exception is RuntimeError, and it is raised at the first step at which the number of events differs from the number at the start (even if all events had been visited). -/
theorem C112_changes (it : Iter) (env : ℕ → Finset EId × (EId → Bool)) :
    (causetLoop it env).1.Nodup ∧ (∀ e ∈ (causetLoop it env).1, e ∈ (env 0).1 ∧ ∃ m, (env m).2 e = true) ∧
    ((causetLoop it env).2 = none → (∀ m ≤ (causetLoop it env).1.length, (env m).1.card = (env 0).1.card) ∧
      ∀ e ∈ (env 0).1, (∀ m, (env m).2 e = true) → e ∈ (causetLoop it env).1) ∧
    (∀ x, (causetLoop it env).2 = some x → x = .runtimeError ∧ (env (causetLoop it env).1.length).1.card ≠ (env 0).1.card ∧
      ∀ m < (causetLoop it env).1.length, (env m).1.card = (env 0).1.card) := by
  obtain ⟨i1, i2, i3, i4, i5⟩ := setIterLoop_spec (env 0).1.card env ((env 0).1.card + 1) 0 (it.ord [376] (env 0).1) (by rw [ord_length]; omega)
  simp only [Nat.zero_add] at i2 i3
  refine ⟨i1.nodup (it.nodup _ _), fun e he => ⟨(it.mem _ _ _).1 (i1.subset he), i5 e he⟩, fun hx => ⟨i2 hx, fun e he hall => i4 hx e ((it.mem _ _ _).2 he) hall⟩, i3⟩

/-- **C112, the usual mistake.** A loop over a non-empty causet that adds or removes events in its first round (`for e in C: C.discard(e)`, or `C.create` with a new event for every event) gets one event and then
RuntimeError. -/
theorem C112_mistake (it : Iter) (env : ℕ → Finset EId × (EId → Bool)) (hne : (env 0).1 ≠ ∅) (hall : ∀ m e, (env m).2 e = true) (h1 : (env 1).1.card ≠ (env 0).1.card) :
    ∃ x ∈ (env 0).1, causetLoop it env = ([x], some .runtimeError) := by
  obtain ⟨y, hy⟩ := Finset.nonempty_iff_ne_empty.2 hne
  have hpos : (env 0).1.card ≠ 0 := Finset.card_ne_zero_of_mem hy
  match hL : it.ord [376] (env 0).1 with
  | [] =>
    have := ord_length it [376] (env 0).1
    rw [hL] at this
    exact absurd this.symm hpos
  | x :: xs =>
    refine ⟨x, (it.mem [376] _ _).1 (by rw [hL]; simp), ?_⟩
    obtain ⟨c, hc⟩ := Nat.exists_eq_succ_of_ne_zero hpos
    rw [causetLoop, hL, setIterLoop, setIterNext_ok rfl]
    have hd : (x :: xs).dropWhile (fun e => !(env 0).2 e) = x :: xs := by
      rw [List.dropWhile_cons, hall 0 x]; rfl
    rw [hd]
    dsimp only
    conv in (setIterLoop _ _ _ _ _).1 => rw [hc]
    rw [hc, setIterLoop, setIterNext, if_pos (by rw [← hc]; exact h1)]

/-- **C112, a case**: three events; a loop that changes nothing, one that discards the visited event, one that adds an event in its last round, one over the events of a label that its body changes. -/
theorem C112_case :
    causetLoop Iter.asc (fun _ => ({0, 1, 2}, fun _ => true)) = ([0, 1, 2], none) ∧
    causetLoop Iter.asc (fun n => (if n = 0 then {0, 1, 2} else {1, 2}, fun _ => true)) = ([0], some .runtimeError) ∧
    causetLoop Iter.asc (fun n => (if n < 3 then {0, 1, 2} else {0, 1, 2, 3}, fun _ => true)) = ([0, 1, 2], some .runtimeError) ∧
    causetLoop Iter.asc (fun n => ({0, 1, 2}, fun e => decide (n = 0 ∨ e ≠ 1))) = ([0, 2], none) := by
  refine ⟨by decide +kernel, by decide +kernel, by decide +kernel, by decide +kernel⟩

end Causets
