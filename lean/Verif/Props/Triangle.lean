import Verif.Props.Paths
import Verif.Props.Rank
import Verif.Props.Schedule
import Mathlib.Data.ENat.Basic
import Mathlib.Tactic.Linarith

/-! # C134: the rank obeys the triangle inequality, the longest paths the reversed one and are the longest chains -/

namespace Causets

open Heap

/-- **Specification.** `q` is a chain of events from `a` to `b`, listed from the past to the future. -/
def ChainOf (lt : ℕ → ℕ → Prop) (a b : ℕ) (q : List ℕ) : Prop :=
  q.head? = some a ∧ q.getLast? = some b ∧ q.Pairwise lt

variable {h : Heap}

theorem linkPath_split {lt : ℕ → ℕ → Prop} (a b c : ℕ) (s t : List ℕ) :
    LinkPath lt a c (s ++ b :: t) ↔ LinkPath lt a b (s ++ [b]) ∧ LinkPath lt b c (b :: t) := by
  unfold LinkPath
  rw [List.isChain_split]
  have h1 : (s ++ b :: t).head? = (s ++ [b]).head? := by cases s <;> simp
  have h2 : (s ++ b :: t).getLast? = (b :: t).getLast? := by rw [List.getLast?_append_of_ne_nil _ (by simp)]
  rw [h1, h2]
  constructor
  · rintro ⟨k1, k2, k3, k4⟩
    exact ⟨⟨k1, by simp, k3⟩, rfl, k2, k4⟩
  · rintro ⟨⟨k1, -, k3⟩, -, k2, k4⟩
    exact ⟨k1, k2, k3, k4⟩

theorem linkPath_cut {lt : ℕ → ℕ → Prop} {a b c : ℕ} {q : List ℕ} (hq : LinkPath lt a c q) (hb : b ∈ q) :
    ∃ p r, LinkPath lt a b p ∧ LinkPath lt b c r ∧ p.length + r.length = q.length + 1 := by
  obtain ⟨s, t, rfl⟩ := List.append_of_mem hb
  obtain ⟨k1, k2⟩ := (linkPath_split a b c s t).1 hq
  exact ⟨_, _, k1, k2, by simp; omega⟩

theorem linkPath_join {lt : ℕ → ℕ → Prop} {a b c : ℕ} {p r : List ℕ} (hp : LinkPath lt a b p) (hr : LinkPath lt b c r) :
    ∃ q, LinkPath lt a c q ∧ b ∈ q ∧ p.length + r.length = q.length + 1 := by
  obtain ⟨s, hs⟩ : ∃ s, p = s ++ [b] := by
    have := hp.2.1
    rw [List.getLast?_eq_some_iff] at this
    exact this
  subst hs
  match r, hr with
  | x :: t, hr =>
    have hx : x = b := by have := hr.1; simpa using this
    subst hx
    exact ⟨s ++ x :: t, (linkPath_split a x c s t).2 ⟨hp, hr⟩, by simp, by simp; omega⟩
  | [], hr => exact absurd hr.1 (by simp)

theorem LinkPath.pos {lt : ℕ → ℕ → Prop} {a b : ℕ} {q : List ℕ} (hq : LinkPath lt a b q) : 1 ≤ q.length := by
  match q, hq with
  | [], hq => exact absurd hq.1 (by simp)
  | x :: t, _ => simp

theorem LinkPath.two {lt : ℕ → ℕ → Prop} {a b : ℕ} {q : List ℕ} (hq : LinkPath lt a b q) (hab : a ≠ b) : 2 ≤ q.length := by
  match q, hq with
  | [], hq => exact absurd hq.1 (by simp)
  | [x], hq =>
    obtain ⟨h1, h2, -⟩ := hq
    simp at h1 h2
    exact absurd (h1.symm.trans h2) hab
  | x :: y :: t, _ => simp

/-- **C134, rank.** For any three events `Rank(a, c) ≤ Rank(a, b) + Rank(b, c)`; if the right side is finite, there is equality exactly if a shortest
path from `a` to `c` (one that `Paths(a, c, 'min')` yields) contains `b`. `Rank(a, b)` is 0 exactly if `a` is `b` and 1 exactly if there is a link. -/
theorem C134_rank (it : Iter) (v : h.Valid) (fuel : ℕ) (hf : h.next ≤ fuel) (hpos : 0 < fuel) (ctx : List ℕ) (a b c : EId) :
    ∃ r1 r2 r3 : ℕ∞, h.Answers (rank it fuel ctx a b) (.ok r1) ∧ h.Answers (rank it fuel ctx b c) (.ok r2) ∧
      h.Answers (rank it fuel ctx a c) (.ok r3) ∧ r3 ≤ r1 + r2 ∧ (r1 = 0 ↔ a = b) ∧ (r1 = 1 ↔ Covers h.Lt a b) ∧
      (r1 + r2 ≠ ⊤ → h.AnswersWith (paths it a c (.str "min")) (fun r => ∃ ps, r = .ok ps ∧ (r3 = r1 + r2 ↔ ∃ q ∈ ps, b ∈ q))) := by
  have hans : ∀ x y : EId, ∃ r, IsRank h.Lt x y r ∧ h.Answers (rank it fuel ctx x y) (.ok r) := by
    intro x y
    obtain ⟨r, hr⟩ := IsRank.exists v x y
    refine ⟨r, hr, AnswersWith.mono (C31_rank it v fuel hf hpos ctx x y) ?_⟩
    rintro _ ⟨k, rfl, hk⟩
    rw [hk.unique' hr]
  obtain ⟨r1, k1, e1⟩ := hans a b
  obtain ⟨r2, k2, e2⟩ := hans b c
  obtain ⟨r3, k3, e3⟩ := hans a c
  have hzero : r1 = 0 ↔ a = b := by
    constructor
    · rintro rfl
      rcases k1 with ⟨-, h0⟩ | ⟨-, n, h0, ⟨q, hq, hl⟩, -⟩
      · simp at h0
      · have : n = 0 := by exact_mod_cast h0.symm
        subst this
        by_contra hab
        have := hq.two hab
        omega
    · rintro rfl
      refine k1.unique' (Or.inr ⟨Or.inl rfl, 0, rfl, ⟨[a], ⟨rfl, rfl, List.isChain_singleton a⟩, rfl⟩, fun m _ => Nat.zero_le m⟩)
  have hone : r1 = 1 ↔ Covers h.Lt a b := by
    constructor
    · rintro rfl
      rcases k1 with ⟨-, h0⟩ | ⟨-, n, h0, ⟨q, hq, hl⟩, -⟩
      · exact absurd h0 (by decide)
      · have : n = 1 := by exact_mod_cast h0.symm
        subst this
        match q, hl, hq with
        | [x, y], _, hq =>
          obtain ⟨h1, h2, h3⟩ := hq
          simp at h1 h2
          subst h1 h2
          simpa using h3
    · intro hab
      refine k1.unique' (Or.inr ⟨Or.inr hab.1, 1, rfl, ⟨[a, b], ⟨rfl, rfl, by simpa using hab⟩, rfl⟩, ?_⟩)
      rintro m ⟨q, hq, hl⟩
      have hne : a ≠ b := by rintro rfl; exact v.order.irrefl _ hab.1
      have := hq.two hne
      omega
  have key : ∀ n m : ℕ, r1 = n → r2 = m → ∃ k : ℕ, r3 = k ∧ k ≤ n + m ∧
      (k = n + m ↔ ∃ q, LinkPath h.Lt a c q ∧ (∀ q', LinkPath h.Lt a c q' → q.length ≤ q'.length) ∧ b ∈ q) := by
    rintro n m rfl rfl
    rcases k1 with ⟨-, h0⟩ | ⟨-, n', h0, ⟨q1, hq1, hl1⟩, hleast1⟩
    · simp at h0
    rcases k2 with ⟨-, h0'⟩ | ⟨-, m', h0', ⟨q2, hq2, hl2⟩, hleast2⟩
    · simp at h0'
    have hn : n = n' := by exact_mod_cast h0
    have hm : m = m' := by exact_mod_cast h0'
    subst hn hm
    obtain ⟨q, hq, hbq, hl⟩ := linkPath_join hq1 hq2
    rcases k3 with ⟨hno, -⟩ | ⟨-, k, rfl, ⟨q3, hq3, hl3⟩, hleast3⟩
    · exact absurd (hq.le v.order) hno
    have hk : k ≤ n + m := hleast3 ⟨q, hq, by omega⟩
    refine ⟨k, rfl, hk, fun he => ⟨q, hq, fun q' hq' => ?_, hbq⟩, ?_⟩
    · have hq1' := hq'.pos
      have h1 : k ≤ q'.length - 1 := hleast3 ⟨q', hq', by omega⟩
      have h2 : q.length = n + m + 1 := by omega
      show q.length ≤ q'.length
      omega
    · rintro ⟨q', hq', hmin, hb⟩
      obtain ⟨p, r, hp, hr, hpr⟩ := linkPath_cut hq' hb
      have h1 := hleast1 ⟨p, hp, show p.length = (p.length - 1) + 1 by have := hp.pos; omega⟩
      have h2 := hleast2 ⟨r, hr, show r.length = (r.length - 1) + 1 by have := hr.pos; omega⟩
      have h3 := hmin q3 hq3
      have := hp.pos
      have := hr.pos
      omega
  refine ⟨r1, r2, r3, e1, e2, e3, ?_, hzero, hone, fun hfin => ?_⟩
  · by_cases hfin : r1 + r2 = ⊤
    · rw [hfin]; exact le_top
    · have ht : r1 ≠ ⊤ ∧ r2 ≠ ⊤ := by
        constructor <;> rintro rfl <;> simp at hfin
      obtain ⟨n, hn⟩ := ENat.ne_top_iff_exists.1 ht.1
      obtain ⟨m, hm⟩ := ENat.ne_top_iff_exists.1 ht.2
      obtain ⟨k, hk, hle, -⟩ := key n m hn.symm hm.symm
      rw [hk, ← hn, ← hm]
      exact_mod_cast hle
  · have ht : r1 ≠ ⊤ ∧ r2 ≠ ⊤ := by
      constructor <;> rintro rfl <;> simp at hfin
    obtain ⟨n, hn⟩ := ENat.ne_top_iff_exists.1 ht.1
    obtain ⟨m, hm⟩ := ENat.ne_top_iff_exists.1 ht.2
    obtain ⟨k, hk, -, hiff⟩ := key n m hn.symm hm.symm
    refine AnswersWith.mono (C34_min it v a c) ?_
    rintro _ ⟨ps, rfl, -, hps⟩
    refine ⟨ps, rfl, ?_⟩
    have he : r3 = r1 + r2 ↔ k = n + m := by
      rw [hk, ← hn, ← hm]
      exact_mod_cast Iff.rfl
    rw [he, hiff]
    constructor
    · rintro ⟨q, hq, hmin, hb⟩
      exact ⟨q, (hps q).2 ⟨hq, hmin⟩, hb⟩
    · rintro ⟨q, hq, hb⟩
      exact ⟨q, ((hps q).1 hq).1, ((hps q).1 hq).2, hb⟩

/-- every chain is a path of links or shorter than one -/
theorem chain_refine (v : h.Valid) : ∀ (q : List EId) (a b : EId), ChainOf h.Lt a b q →
    LinkPath h.Lt a b q ∨ ∃ p, LinkPath h.Lt a b p ∧ q.length < p.length
  | [], _, _, hq => absurd hq.1 (by simp)
  | [x], a, b, hq => Or.inl ⟨hq.1, hq.2.1, List.isChain_singleton x⟩
  | x :: y :: t, a, b, hq => by
    obtain ⟨h1, h2, h3⟩ := hq
    simp only [List.head?_cons, Option.some.injEq] at h1
    subst h1
    rw [List.pairwise_cons] at h3
    have hxy : h.Lt x y := h3.1 y (by simp)
    have ih := chain_refine v (y :: t) y b ⟨rfl, by simpa using h2, h3.2⟩
    have hne : x ≠ y := by rintro rfl; exact v.order.irrefl _ hxy
    obtain ⟨p, hp, hpl⟩ : ∃ p, LinkPath h.Lt y b p ∧ (y :: t).length ≤ p.length := by
      rcases ih with ih | ⟨p, hp, hl⟩
      · exact ⟨_, ih, le_rfl⟩
      · exact ⟨p, hp, hl.le⟩
    by_cases hcov : Covers h.Lt x y
    · rcases ih with ih | ⟨p, hp, hl⟩
      · exact Or.inl ⟨rfl, by simpa using h2, List.isChain_cons_cons.2 ⟨hcov, ih.2.2⟩⟩
      · obtain ⟨q, hq, -, hlq⟩ := linkPath_join (a := x) (p := [x, y]) ⟨rfl, rfl, by simpa using hcov⟩ hp
        refine Or.inr ⟨q, hq, ?_⟩
        simp only [List.length_cons, List.length_nil] at *
        omega
    · have : ∃ z, h.Lt x z ∧ h.Lt z y := by
        unfold Covers at hcov
        by_contra hno
        exact hcov ⟨hxy, fun z hz => hno ⟨z, hz⟩⟩
      obtain ⟨z, hxz, hzy⟩ := this
      obtain ⟨p1, hp1⟩ := (C34_nonempty v x z).2 (Or.inr hxz)
      obtain ⟨p2, hp2⟩ := (C34_nonempty v z y).2 (Or.inr hzy)
      obtain ⟨p3, hp3, -, hl3⟩ := linkPath_join hp1 hp2
      obtain ⟨q, hq, -, hlq⟩ := linkPath_join hp3 hp
      have k1 := hp1.two (by rintro rfl; exact v.order.irrefl _ hxz)
      have k2 := hp2.two (by rintro rfl; exact v.order.irrefl _ hzy)
      refine Or.inr ⟨q, hq, ?_⟩
      simp only [List.length_cons] at *
      omega

theorem LinkPath.chainOf (v : h.Valid) {a b : EId} {q : List EId} (hq : LinkPath h.Lt a b q) : ChainOf h.Lt a b q := by
  haveI : IsTrans ℕ h.Lt := ⟨fun a b c hab hbc => v.order.trans a b c hab hbc⟩
  exact ⟨hq.1, hq.2.1, List.isChain_iff_pairwise.1 (hq.2.2.imp fun _ _ hab => hab.1)⟩

/-- **C134, geodesics.** `Paths(a, b, 'timegeo')` (and `'max'`) yields exactly the chains of greatest length from `a` to `b`. -/
theorem C134_geodesics (it : Iter) (v : h.Valid) (a b : EId) (s : String) (hs : s = "max" ∨ s = "timegeo") :
    h.AnswersWith (paths it a b (.str s)) (fun r => ∃ ps, r = .ok ps ∧ ps.Nodup ∧
      ∀ q, q ∈ ps ↔ ChainOf h.Lt a b q ∧ ∀ q', ChainOf h.Lt a b q' → q'.length ≤ q.length) := by
  refine AnswersWith.mono (C34_max it v a b s hs) ?_
  rintro _ ⟨ps, rfl, hn, hps⟩
  refine ⟨ps, rfl, hn, fun q => ?_⟩
  rw [hps]
  constructor
  · rintro ⟨hq, hmax⟩
    refine ⟨hq.chainOf v, fun q' hq' => ?_⟩
    rcases chain_refine v q' a b hq' with k | ⟨p, hp, hl⟩
    · exact hmax q' k
    · exact hl.le.trans (hmax p hp)
  · rintro ⟨hq, hmax⟩
    rcases chain_refine v q a b hq with k | ⟨p, hp, hl⟩
    · exact ⟨k, fun q' hq' => hmax q' (hq'.chainOf v)⟩
    · have := hmax p (hp.chainOf v)
      omega

/-- **C134, reversed triangle inequality.** If `a ≤ b ≤ c`, there are numbers of links `m`, `n` and `k` of all longest paths from `a` to `b`, `b` to `c`
and `a` to `c`, and `m + n ≤ k`; there is equality exactly if a longest path from `a` to `c` contains `b`. -/
theorem C134_longest (it : Iter) (v : h.Valid) (a b c : EId) (s : String) (hs : s = "max" ∨ s = "timegeo") (hab : h.le a b = true)
    (hbc : h.le b c = true) :
    ∃ m n k : ℕ, h.AnswersWith (paths it a b (.str s)) (fun r => ∃ ps, r = .ok ps ∧ ps ≠ [] ∧ ∀ q ∈ ps, q.length = m + 1) ∧
      h.AnswersWith (paths it b c (.str s)) (fun r => ∃ ps, r = .ok ps ∧ ps ≠ [] ∧ ∀ q ∈ ps, q.length = n + 1) ∧
      h.AnswersWith (paths it a c (.str s)) (fun r => ∃ ps, r = .ok ps ∧ ps ≠ [] ∧ (∀ q ∈ ps, q.length = k + 1) ∧
        (k = m + n ↔ ∃ q ∈ ps, b ∈ q)) ∧ m + n ≤ k := by
  rw [le_iff] at hab hbc
  have hac : a = c ∨ h.Lt a c := by
    rcases hab with rfl | hab
    · exact hbc
    · rcases hbc with rfl | hbc
      · exact Or.inr hab
      · exact Or.inr (v.order.trans _ _ _ hab hbc)
  have hans : ∀ x y : EId, (x = y ∨ h.Lt x y) → ∃ m : ℕ, (∃ q, LinkPath h.Lt x y q ∧ q.length = m + 1) ∧
      (∀ q, LinkPath h.Lt x y q → q.length ≤ m + 1) ∧
      h.AnswersWith (paths it x y (.str s)) (fun r => ∃ ps, r = .ok ps ∧ ps ≠ [] ∧ (∀ q ∈ ps, q.length = m + 1) ∧
        ∀ q, q ∈ ps ↔ LinkPath h.Lt x y q ∧ q.length = m + 1) := by
    intro x y hxy
    obtain ⟨q0, hq0⟩ := (C34_nonempty v x y).2 hxy
    have hbound : ∀ q, LinkPath h.Lt x y q → q.length ≤ h.next + 2 := by
      intro q hq
      haveI : IsTrans ℕ h.Lt := ⟨fun a b c hab hbc => v.order.trans a b c hab hbc⟩
      have hpw := (hq.chainOf v).2.2
      have hnd : q.Nodup := hpw.imp fun {a b} hab => by rintro rfl; exact v.order.irrefl _ hab
      have hlast : q.dropLast.length ≤ h.next := by
        have hsub : q.dropLast ⊆ List.range h.next := by
          intro z hz
          rw [List.mem_range]
          obtain ⟨t, ht⟩ : ∃ t, q = t ++ [y] := by
            have := hq.2.1
            rwa [List.getLast?_eq_some_iff] at this
          subst ht
          rw [List.dropLast_concat] at hz
          rw [List.pairwise_append] at hpw
          exact (v.exists_of_lt _ _ (hpw.2.2 z hz y (by simp))).1
        have h1 : q.dropLast.Nodup := hnd.sublist (List.dropLast_sublist _)
        simpa using (h1.subperm hsub).length_le
      rw [List.length_dropLast] at hlast
      omega
    have hfind : ∃ m : ℕ, (∃ q, LinkPath h.Lt x y q ∧ q.length = m + 1) ∧ ∀ q, LinkPath h.Lt x y q → q.length ≤ m + 1 := by
      have hP : ∃ k, ∀ q, LinkPath h.Lt x y q → q.length ≤ k := ⟨_, hbound⟩
      classical
      have h1 := Nat.find_spec hP
      have h2 : Nat.find hP ≠ 0 := by
        intro h0
        rw [h0] at h1
        have := h1 q0 hq0
        have := hq0.pos
        omega
      have h3 := Nat.find_min hP (m := Nat.find hP - 1) (by omega)
      push Not at h3
      obtain ⟨q, hq, hl⟩ := h3
      have := h1 q hq
      exact ⟨Nat.find hP - 1, ⟨q, hq, by omega⟩, fun q' hq' => by have := h1 q' hq'; omega⟩
    obtain ⟨m, ⟨q, hq, hl⟩, hmax⟩ := hfind
    refine ⟨m, ⟨q, hq, hl⟩, hmax, AnswersWith.mono (C34_max it v x y s hs) ?_⟩
    rintro _ ⟨ps, rfl, -, hps⟩
    have hiff : ∀ p, p ∈ ps ↔ LinkPath h.Lt x y p ∧ p.length = m + 1 := by
      intro p
      rw [hps]
      refine and_congr_right fun hp => ⟨fun hh => ?_, fun hh q' hq' => by have := hmax q' hq'; omega⟩
      have := hh q hq
      have := hmax p hp
      omega
    exact ⟨ps, rfl, List.ne_nil_of_mem ((hiff q).2 ⟨hq, hl⟩), fun p hp => ((hiff p).1 hp).2, hiff⟩
  obtain ⟨m, ⟨q1, hq1, hl1⟩, hmax1, e1⟩ := hans a b hab
  obtain ⟨n, ⟨q2, hq2, hl2⟩, hmax2, e2⟩ := hans b c hbc
  obtain ⟨k, ⟨q3, hq3, hl3⟩, hmax3, e3⟩ := hans a c hac
  obtain ⟨q, hq, hbq, hl⟩ := linkPath_join hq1 hq2
  have hle := hmax3 q hq
  refine ⟨m, n, k, AnswersWith.mono e1 ?_, AnswersWith.mono e2 ?_, AnswersWith.mono e3 ?_, by omega⟩
  · rintro _ ⟨ps, rfl, k1, k2, -⟩; exact ⟨ps, rfl, k1, k2⟩
  · rintro _ ⟨ps, rfl, k1, k2, -⟩; exact ⟨ps, rfl, k1, k2⟩
  · rintro _ ⟨ps, rfl, k1, k2, hps⟩
    refine ⟨ps, rfl, k1, k2, fun he => ⟨q, (hps q).2 ⟨hq, by omega⟩, hbq⟩, ?_⟩
    rintro ⟨q', hq', hb⟩
    obtain ⟨hq'1, hq'2⟩ := (hps q').1 hq'
    obtain ⟨p, r, hp, hr, hpr⟩ := linkPath_cut hq'1 hb
    have := hmax1 p hp
    have := hmax2 r hr
    omega

/-- A concrete case: event 2 lies on the longest but not on the shortest path from 0 to 6, so that the rank inequality is strict there and the longest
paths add up. -/
example : exShort.Valid ∧ exShort.le 0 2 = true ∧ exShort.le 2 6 = true ∧
    ((rank Iter.asc 7 [] 0 6).run exShort).1.toOption = some 2 ∧ ((rank Iter.asc 7 [] 0 2).run exShort).1.toOption = some 2 ∧
    ((paths Iter.asc 0 6 (.str "timegeo")).run exShort).1.toOption = some [[0, 1, 2, 3, 4, 6]] :=
  ⟨exShort_reach.valid, by decide⟩

end Causets
