import Verif.Props.MergeLink
import Mathlib.Tactic.Ring

/-! # C22: `isPath` -/

namespace Causets

open Heap

variable {h : Heap}

/-- links of `e` within `s` -/
def linkDeg (h : Heap) (s : Finset EId) (e : EId) : ℕ := ((h.pastLinks e ∪ h.futureLinks e) ∩ s).card

theorem isPathLoop_answers (v : h.Valid) (s : Finset EId) (L : List EId) : ∀ n : ℕ,
    h.Answers (isPathLoop s L n)
      (decide ((∀ e ∈ L, 1 ≤ linkDeg h s e ∧ linkDeg h s e ≤ 2) ∧
        ((L.filter (fun e => linkDeg h s e = 1)).length = 0 ∨
          n + (L.filter (fun e => linkDeg h s e = 1)).length ≤ 2))) := by
  induction L with
  | nil => intro n; simpa [isPathLoop] using Answers.pure
  | cons e es ih =>
    intro n
    unfold isPathLoop
    refine Answers.bind (linkCone_answers v e) ?_
    change h.Answers (if linkDeg h s e < 1 ∨ linkDeg h s e > 2 then pure false
      else if linkDeg h s e = 1 then if n + 1 > 2 then pure false else isPathLoop s es (n + 1)
      else isPathLoop s es n) _
    by_cases h1 : linkDeg h s e < 1 ∨ linkDeg h s e > 2
    · rw [if_pos h1]
      have : ¬ ((∀ x ∈ e :: es, 1 ≤ linkDeg h s x ∧ linkDeg h s x ≤ 2)) := fun hc => by
        have := hc e (by simp); omega
      rw [decide_eq_false (fun hc => this hc.1)]
      exact Answers.pure
    · rw [if_neg h1]
      by_cases h2 : linkDeg h s e = 1
      · rw [if_pos h2]
        by_cases h3 : n + 1 > 2
        · rw [if_pos h3]
          have : ¬ (((e :: es).filter (fun e => linkDeg h s e = 1)).length = 0 ∨
              n + ((e :: es).filter (fun e => linkDeg h s e = 1)).length ≤ 2) := by
            simp [h2]; omega
          rw [decide_eq_false (fun hc => this hc.2)]
          exact Answers.pure
        · rw [if_neg h3]
          convert ih (n + 1) using 2
          simp only [List.mem_cons, forall_eq_or_imp, h2, List.filter_cons, decide_true, if_true,
            List.length_cons]
          refine and_congr (by simp) ?_
          omega
      · rw [if_neg h2]
        convert ih n using 2
        simp only [List.mem_cons, forall_eq_or_imp, h2, List.filter_cons, decide_false,
          Bool.false_eq_true, if_false]
        refine and_congr_left fun _ => ?_
        constructor
        · exact fun hh => hh.2
        · exact fun hh => ⟨by omega, hh⟩

/-- **C22, what is decided.** For two or more events `isPath(S)` is True exactly if every event of `S` has one or two
links within `S` and at most two events have only one. -/
theorem C22_isPath_degrees (it : Iter) (v : h.Valid) (C s : Finset EId) (hs : 2 ≤ s.card) :
    h.Answers (isPath it C (some s))
      (decide ((∀ e ∈ s, 1 ≤ linkDeg h s e ∧ linkDeg h s e ≤ 2) ∧
        (s.filter (fun e => linkDeg h s e = 1)).card ≤ 2)) := by
  unfold isPath
  simp only [show ¬ s.card ≤ 1 by omega, if_false]
  convert isPathLoop_answers v s (it.ord [458] s) 0 using 2
  have hc : ((it.ord [458] s).filter (fun e => linkDeg h s e = 1)).length =
      (s.filter (fun e => linkDeg h s e = 1)).card := by
    rw [← List.toFinset_card_of_nodup ((it.nodup _ _).filter _)]
    congr 1; ext x; simp [it.mem]
  rw [hc]
  refine and_congr (by simp [it.mem]) ?_
  omega

/-! ### Chains of links -/

/-- `s` is the set of events of a non-empty chain of links -/
def IsLinkPathSet (lt : ℕ → ℕ → Prop) (s : Finset ℕ) : Prop :=
  ∃ a b p, LinkPath lt a b p ∧ p.toFinset = s

theorem LinkPath.pairwise (v : h.Valid) {p : List ℕ} (hp : p.IsChain (Covers h.Lt)) :
    p.Pairwise h.Lt := by
  have : Trans h.Lt h.Lt h.Lt := ⟨fun h1 h2 => v.trans h1 h2⟩
  have : p.IsChain h.Lt := hp.imp fun a b hab => hab.1
  exact List.isChain_iff_pairwise.1 this

/-- every event of `s` that is not the last one has a link to an event of `s` -/
def UpLinked (h : Heap) (s : Finset EId) : Prop :=
  ∀ x ∈ s, (∃ y ∈ s, h.Lt x y) → ∃ y ∈ s, Covers h.Lt x y

theorem upLinked_of_path (v : h.Valid) {p : List ℕ} (hp : p.IsChain (Covers h.Lt)) :
    IsChainSet h.Lt p.toFinset ∧ UpLinked h p.toFinset := by
  induction p with
  | nil => exact ⟨fun a ha => by simp at ha, fun a ha => by simp at ha⟩
  | cons x t ih =>
    have hpw := LinkPath.pairwise v hp
    obtain ⟨i1, i2⟩ := ih hp.tail
    rw [List.pairwise_cons] at hpw
    constructor
    · intro a ha b hb hab
      rw [List.mem_toFinset, List.mem_cons] at ha hb
      rcases ha with rfl | ha <;> rcases hb with rfl | hb
      · exact absurd rfl hab
      · exact Or.inl (hpw.1 b hb)
      · exact Or.inr (hpw.1 a ha)
      · exact i1 a (List.mem_toFinset.2 ha) b (List.mem_toFinset.2 hb) hab
    · intro a ha ⟨b, hb, hab⟩
      rw [List.mem_toFinset, List.mem_cons] at ha hb
      rcases ha with rfl | ha
      · cases t with
        | nil =>
          rcases hb with rfl | hb
          · exact absurd hab (v.irrefl _)
          · simp at hb
        | cons y t =>
          rw [List.isChain_cons_cons] at hp
          exact ⟨y, by simp, hp.1⟩
      · have hb' : b ∈ t := by
          rcases hb with rfl | hb
          · exact absurd (hpw.1 a ha) (v.asymm hab)
          · exact hb
        obtain ⟨y, hy, hc⟩ := i2 a (List.mem_toFinset.2 ha) ⟨b, List.mem_toFinset.2 hb', hab⟩
        refine ⟨y, ?_, hc⟩
        rw [List.mem_toFinset] at hy ⊢
        exact List.mem_cons_of_mem _ hy

theorem exists_least (v : h.Valid) {s : Finset EId} (hc : IsChainSet h.Lt s) (hs : s.Nonempty) :
    ∃ m ∈ s, ∀ x ∈ s, x ≠ m → h.Lt m x := by
  obtain ⟨e, he⟩ := hs
  obtain ⟨m, hm, -, h1⟩ := exists_min_below v s _ e (Nat.lt_succ_self _) he
  refine ⟨m, hm, fun x hx hxm => ?_⟩
  rcases hc x hx m hm hxm with h2 | h2
  · exact absurd h2 (h1 x hx)
  · exact h2

theorem exists_greatest (v : h.Valid) {s : Finset EId} (hc : IsChainSet h.Lt s) (hs : s.Nonempty) :
    ∃ m ∈ s, ∀ x ∈ s, x ≠ m → h.Lt x m := by
  obtain ⟨e, he⟩ := hs
  obtain ⟨m, hm, -, h1⟩ := exists_max_above v s _ e (Nat.lt_succ_self _) he
  refine ⟨m, hm, fun x hx hxm => ?_⟩
  rcases hc x hx m hm hxm with h2 | h2
  · exact h2
  · exact absurd h2 (h1 x hx)

theorem path_of_upLinked (v : h.Valid) : ∀ (n : ℕ) (s : Finset EId), s.card = n → s.Nonempty →
    IsChainSet h.Lt s → UpLinked h s →
    ∃ p : List ℕ, p.IsChain (Covers h.Lt) ∧ p.toFinset = s := by
  intro n
  induction n with
  | zero => intro s hn hs; rw [Finset.card_eq_zero] at hn; subst hn; exact absurd hs (by simp)
  | succ n ih =>
    intro s hn hs hc hu
    obtain ⟨m, hm, hmin⟩ := exists_least v hc hs
    by_cases he : (s.erase m).Nonempty
    · have hc' : IsChainSet h.Lt (s.erase m) := fun a ha b hb =>
        hc a (Finset.mem_of_mem_erase ha) b (Finset.mem_of_mem_erase hb)
      have hu' : UpLinked h (s.erase m) := by
        intro x hx ⟨y, hy, hxy⟩
        obtain ⟨z, hz, hcov⟩ := hu x (Finset.mem_of_mem_erase hx) ⟨y, Finset.mem_of_mem_erase hy, hxy⟩
        refine ⟨z, Finset.mem_erase.2 ⟨?_, hz⟩, hcov⟩
        rintro rfl
        exact v.asymm hcov.1 (hmin x (Finset.mem_of_mem_erase hx) (Finset.ne_of_mem_erase hx))
      obtain ⟨p, hp, hps⟩ := ih (s.erase m) (by rw [Finset.card_erase_of_mem hm]; omega) he hc' hu'
      refine ⟨m :: p, ?_, by rw [List.toFinset_cons, hps, Finset.insert_erase hm]⟩
      cases p with
      | nil => exact List.isChain_singleton _
      | cons x t =>
        refine List.isChain_cons_cons.2 ⟨?_, hp⟩
        have hpw := LinkPath.pairwise v hp
        rw [List.pairwise_cons] at hpw
        have hx : x ∈ s.erase m := by rw [← hps]; simp
        have hmx := hmin x (Finset.mem_of_mem_erase hx) (Finset.ne_of_mem_erase hx)
        obtain ⟨z, hz, hcov⟩ := hu m hm ⟨x, Finset.mem_of_mem_erase hx, hmx⟩
        have hz' : z ∈ s.erase m := Finset.mem_erase.2 ⟨(v.ne hcov.1).symm, hz⟩
        rw [← hps, List.mem_toFinset, List.mem_cons] at hz'
        rcases hz' with rfl | hz'
        · exact hcov
        · exact absurd ⟨hmx, hpw.1 z hz'⟩ (hcov.2 x)
    · refine ⟨[m], List.isChain_singleton _, ?_⟩
      rw [Finset.not_nonempty_iff_eq_empty] at he
      have := Finset.insert_erase hm
      rw [he] at this
      rw [← this]; simp

theorem isLinkPathSet_iff (v : h.Valid) (s : Finset EId) (hs : s.Nonempty) :
    IsLinkPathSet h.Lt s ↔ IsChainSet h.Lt s ∧ UpLinked h s := by
  constructor
  · rintro ⟨a, b, p, ⟨_, _, hp⟩, rfl⟩; exact upLinked_of_path v hp
  · rintro ⟨h1, h2⟩
    obtain ⟨p, hp, hps⟩ := path_of_upLinked v _ s rfl hs h1 h2
    have hne : p ≠ [] := by rintro rfl; rw [← hps] at hs; simp at hs
    exact ⟨p.head hne, p.getLast hne, p, ⟨List.head?_eq_some_head hne, List.getLast?_eq_some_getLast hne, hp⟩, hps⟩

/-- links of `x` downwards and upwards within `s` -/
def dn (h : Heap) (s : Finset EId) (x : EId) : Finset EId := h.pastLinks x ∩ s
def up (h : Heap) (s : Finset EId) (x : EId) : Finset EId := h.futureLinks x ∩ s

theorem linkDeg_eq (v : h.Valid) (s : Finset EId) (x : EId) :
    linkDeg h s x = (dn h s x).card + (up h s x).card := by
  unfold linkDeg dn up
  rw [Finset.union_inter_distrib_right, Finset.card_union_of_disjoint]
  rw [Finset.disjoint_left]
  intro y hy hy'
  rw [Finset.mem_inter, mem_pastLinks v] at hy
  rw [Finset.mem_inter, mem_futureLinks v] at hy'
  exact v.asymm hy.1.1 hy'.1.1

theorem mem_dn (v : h.Valid) {s : Finset EId} {x y : EId} : y ∈ dn h s x ↔ Covers h.Lt y x ∧ y ∈ s := by
  rw [dn, Finset.mem_inter, mem_pastLinks v]

theorem mem_up (v : h.Valid) {s : Finset EId} {x y : EId} : y ∈ up h s x ↔ Covers h.Lt x y ∧ y ∈ s := by
  rw [up, Finset.mem_inter, mem_futureLinks v]

theorem dn_le_one (v : h.Valid) {s : Finset EId} (hc : IsChainSet h.Lt s) (x : EId) :
    (dn h s x).card ≤ 1 := by
  rw [Finset.card_le_one]
  intro a ha b hb
  rw [mem_dn v] at ha hb
  by_contra hab
  rcases hc a ha.2 b hb.2 hab with h1 | h1
  · exact ha.1.2 b ⟨h1, hb.1.1⟩
  · exact hb.1.2 a ⟨h1, ha.1.1⟩

theorem up_le_one (v : h.Valid) {s : Finset EId} (hc : IsChainSet h.Lt s) (x : EId) :
    (up h s x).card ≤ 1 := by
  rw [Finset.card_le_one]
  intro a ha b hb
  rw [mem_up v] at ha hb
  by_contra hab
  rcases hc a ha.2 b hb.2 hab with h1 | h1
  · exact hb.1.2 a ⟨ha.1.1, h1⟩
  · exact ha.1.2 b ⟨hb.1.1, h1⟩

/-- in a chain the event after `x` -/
theorem exists_next (v : h.Valid) {s : Finset EId} (hc : IsChainSet h.Lt s) {x : EId}
    (hx : ∃ y ∈ s, h.Lt x y) : ∃ y ∈ s, h.Lt x y ∧ ∀ z ∈ s, h.Lt x z → z ≠ y → h.Lt y z := by
  have hc' : IsChainSet h.Lt (s.filter (fun y => h.Lt x y)) := fun a ha b hb =>
    hc a (Finset.mem_filter.1 ha).1 b (Finset.mem_filter.1 hb).1
  obtain ⟨y0, hy0, hxy0⟩ := hx
  obtain ⟨y, hy, hmin⟩ := exists_least v hc' ⟨y0, Finset.mem_filter.2 ⟨hy0, hxy0⟩⟩
  rw [Finset.mem_filter] at hy
  exact ⟨y, hy.1, hy.2, fun z hz hxz hne => hmin z (Finset.mem_filter.2 ⟨hz, hxz⟩) hne⟩

theorem exists_prev (v : h.Valid) {s : Finset EId} (hc : IsChainSet h.Lt s) {x : EId}
    (hx : ∃ y ∈ s, h.Lt y x) : ∃ y ∈ s, h.Lt y x ∧ ∀ z ∈ s, h.Lt z x → z ≠ y → h.Lt z y := by
  have hc' : IsChainSet h.Lt (s.filter (fun y => h.Lt y x)) := fun a ha b hb =>
    hc a (Finset.mem_filter.1 ha).1 b (Finset.mem_filter.1 hb).1
  obtain ⟨y0, hy0, hxy0⟩ := hx
  obtain ⟨y, hy, hmin⟩ := exists_greatest v hc' ⟨y0, Finset.mem_filter.2 ⟨hy0, hxy0⟩⟩
  rw [Finset.mem_filter] at hy
  exact ⟨y, hy.1, hy.2, fun z hz hxz hne => hmin z (Finset.mem_filter.2 ⟨hz, hxz⟩) hne⟩

theorem up_empty (v : h.Valid) {s : Finset EId} {x : EId} (hx : ∀ y ∈ s, ¬ Covers h.Lt x y) :
    (up h s x).card = 0 := by
  rw [Finset.card_eq_zero, Finset.eq_empty_iff_forall_notMem]
  intro y hy; rw [mem_up v] at hy; exact hx y hy.2 hy.1

theorem dn_empty (v : h.Valid) {s : Finset EId} {x : EId} (hx : ∀ y ∈ s, ¬ Covers h.Lt y x) :
    (dn h s x).card = 0 := by
  rw [Finset.card_eq_zero, Finset.eq_empty_iff_forall_notMem]
  intro y hy; rw [mem_dn v] at hy; exact hx y hy.2 hy.1

theorem degrees_iff (v : h.Valid) (s : Finset EId) (hs : 2 ≤ s.card) (hc : IsChainSet h.Lt s) :
    ((∀ e ∈ s, 1 ≤ linkDeg h s e ∧ linkDeg h s e ≤ 2) ∧
        (s.filter (fun e => linkDeg h s e = 1)).card ≤ 2) ↔ UpLinked h s := by
  have hne : s.Nonempty := Finset.card_pos.1 (by omega)
  obtain ⟨m, hm, hmin⟩ := exists_least v hc hne
  obtain ⟨M, hM, hmax⟩ := exists_greatest v hc hne
  have hmd : (dn h s m).card = 0 := dn_empty v fun y hy hcov =>
    v.asymm hcov.1 (hmin y hy (v.ne hcov.1))
  have hMu : (up h s M).card = 0 := up_empty v fun y hy hcov =>
    v.asymm hcov.1 (hmax y hy (v.ne hcov.1).symm)
  constructor
  · rintro ⟨h1, h2⟩ x hx hxy
    by_contra hno
    push Not at hno
    obtain ⟨y, hy, hxy, hnext⟩ := exists_next v hc hxy
    have hxu : (up h s x).card = 0 := up_empty v hno
    have hyd : (dn h s y).card = 0 := dn_empty v fun z hz hcov => by
      by_cases hzx : z = x
      · subst hzx; exact hno y hy hcov
      · rcases hc z hz x hx hzx with h3 | h3
        · exact hcov.2 x ⟨h3, hxy⟩
        · exact v.asymm hcov.1 (hnext z hz h3 (v.ne hcov.1))
    have d1 := h1 m hm
    have d2 := h1 M hM
    have d3 := h1 x hx
    have d4 := h1 y hy
    rw [linkDeg_eq v] at d1 d2 d3 d4
    have u1 := up_le_one v hc m
    have u2 := dn_le_one v hc M
    have u3 := dn_le_one v hc x
    have u4 := up_le_one v hc y
    have n1 : m ≠ x := by rintro rfl; omega
    have n2 : y ≠ M := by rintro rfl; omega
    have n3 : m ≠ y := by
      rintro rfl; exact v.asymm hxy (hmin x hx n1.symm)
    have n4 : x ≠ M := by
      rintro rfl; exact v.asymm hxy (hmax y hy n2)
    have n5 : x ≠ y := v.ne hxy
    have n6 : m ≠ M := by
      rintro rfl; omega
    have hsub : ({m, M, x, y} : Finset EId) ⊆ s.filter (fun e => linkDeg h s e = 1) := by
      intro z hz
      simp only [Finset.mem_insert, Finset.mem_singleton] at hz
      rw [Finset.mem_filter, linkDeg_eq v]
      rcases hz with rfl | rfl | rfl | rfl
      · exact ⟨hm, by omega⟩
      · exact ⟨hM, by omega⟩
      · exact ⟨hx, by omega⟩
      · exact ⟨hy, by omega⟩
    have hcard := Finset.card_le_card hsub
    have : ({m, M, x, y} : Finset EId).card = 4 := by
      rw [Finset.card_insert_of_notMem, Finset.card_insert_of_notMem, Finset.card_insert_of_notMem,
        Finset.card_singleton]
      · simpa using n5
      · simp only [Finset.mem_insert, Finset.mem_singleton, not_or]; exact ⟨n4.symm, n2.symm⟩
      · simp only [Finset.mem_insert, Finset.mem_singleton, not_or]; exact ⟨n6, n1, n3⟩
    omega
  · intro hu
    have hup : ∀ x ∈ s, x ≠ M → (up h s x).card = 1 := fun x hx hxM => by
      obtain ⟨y, hy, hcov⟩ := hu x hx ⟨M, hM, hmax x hx hxM⟩
      have h1 := up_le_one v hc x
      have h2 : 0 < (up h s x).card := Finset.card_pos.2 ⟨y, (mem_up v).2 ⟨hcov, hy⟩⟩
      omega
    have hdn : ∀ x ∈ s, x ≠ m → (dn h s x).card = 1 := fun x hx hxm => by
      obtain ⟨y, hy, hyx, hprev⟩ := exists_prev v hc ⟨m, hm, hmin x hx hxm⟩
      obtain ⟨z, hz, hcov⟩ := hu y hy ⟨x, hx, hyx⟩
      have hzx : z = x := by
        by_contra hzx
        rcases hc z hz x hx hzx with h3 | h3
        · exact v.asymm hcov.1 (hprev z hz h3 (v.ne hcov.1).symm)
        · exact hcov.2 x ⟨hyx, h3⟩
      subst hzx
      have h1 := dn_le_one v hc z
      have h2 : 0 < (dn h s z).card := Finset.card_pos.2 ⟨y, (mem_dn v).2 ⟨hcov, hy⟩⟩
      omega
    have hmM : m ≠ M := by
      rintro rfl
      have : s.card ≤ 1 := Finset.card_le_one.2 fun a ha b hb => by
        have ha' : a = m := by
          by_contra hn; exact v.asymm (hmin a ha hn) (hmax a ha hn)
        have hb' : b = m := by
          by_contra hn; exact v.asymm (hmin b hb hn) (hmax b hb hn)
        rw [ha', hb']
      omega
    have hd := dn_le_one v hc
    have hu1 := up_le_one v hc
    constructor
    · intro e he
      rw [linkDeg_eq v]
      have := hd e
      have := hu1 e
      by_cases h1 : e = M
      · have := hdn e he (by rw [h1]; exact hmM.symm)
        omega
      · have := hup e he h1
        omega
    · refine (Finset.card_le_card (t := {m, M}) fun e he => ?_).trans (Finset.card_le_two)
      rw [Finset.mem_filter, linkDeg_eq v] at he
      by_contra hn
      simp only [Finset.mem_insert, Finset.mem_singleton, not_or] at hn
      have := hup e he.1 hn.2
      have := hdn e he.1 hn.1
      omega

/-- **C22, linked chains.** If `S` is a chain (any two of its events are related), then `isPath(S)` is True exactly if `S` is
the set of events of a non-empty chain of links. -/
theorem C22_isPath_of_chain (it : Iter) (v : h.Valid) (C s : Finset EId) (hc : IsChainSet h.Lt s) :
    h.AnswersWith (isPath it C (some s)) (fun r => r = true ↔ IsLinkPathSet h.Lt s) := by
  by_cases hs : s.card ≤ 1
  · unfold isPath
    simp only [hs, if_true]
    refine AnswersWith.pure ?_
    rw [decide_eq_true_eq]
    constructor
    · intro h1
      obtain ⟨a, rfl⟩ := Finset.card_eq_one.1 h1
      exact ⟨a, a, [a], ⟨rfl, rfl, List.isChain_singleton _⟩, by simp⟩
    · rintro ⟨a, b, p, ⟨h1, -, -⟩, rfl⟩
      have : 0 < p.toFinset.card := by
        refine Finset.card_pos.2 ⟨a, List.mem_toFinset.2 ?_⟩
        exact List.mem_of_mem_head? h1
      omega
  · have hs2 : 2 ≤ s.card := by omega
    refine (C22_isPath_degrees it v C s hs2).mono ?_
    rintro _ rfl
    rw [decide_eq_true_eq, degrees_iff v s hs2 hc,
      isLinkPathSet_iff v s (Finset.card_pos.1 (by omega)), and_iff_right hc]

/-- **C22, every path is accepted.** -/
theorem C22_isPath_accepts_partial (it : Iter) (v : h.Valid) (C s : Finset EId) (hp : IsLinkPathSet h.Lt s) :
    h.Answers (isPath it C (some s)) true := by
  have hne : s.Nonempty := by
    obtain ⟨a, b, p, ⟨h1, -, -⟩, rfl⟩ := hp
    exact ⟨a, List.mem_toFinset.2 (List.mem_of_mem_head? h1)⟩
  exact (C22_isPath_of_chain it v C s ((isLinkPathSet_iff v s hne).1 hp).1).mono fun r hr => hr.2 hp

/-- **C22, no argument.** For a causally closed causet `isPath()` is True exactly if it is a non-empty chain (which then
is a chain of links, as its order is the whole order around it). -/
theorem C22_isPath_whole (it : Iter) (v : h.Valid) (C : Finset EId) (hC : Closed h.Lt C) :
    h.AnswersWith (isPath it C none) (fun r => r = true ↔ IsLinkPathSet h.Lt C) := by
  have hkey : C.Nonempty → (IsLinkPathSet h.Lt C ↔ IsChainSet h.Lt C) := fun hne => by
    rw [isLinkPathSet_iff v C hne]
    refine and_iff_left_of_imp fun hc x hx hxy => ?_
    obtain ⟨y, hy, hxy, hnext⟩ := exists_next v hc hxy
    refine ⟨y, hy, hxy, fun z hz => ?_⟩
    have hzC := hC x hx z (Or.inl hz.1)
    exact v.asymm hz.2 (hnext z hzC hz.1 (v.ne hz.2))
  unfold isPath
  by_cases h0 : C.card = 0
  · simp only [h0, if_true]
    refine AnswersWith.pure ?_
    rw [Finset.card_eq_zero] at h0
    subst h0
    simp only [Bool.false_eq_true, false_iff]
    rintro ⟨a, b, p, ⟨h1, -, -⟩, h2⟩
    have := List.mem_toFinset.2 (List.mem_of_mem_head? h1)
    rw [h2] at this
    simp at this
  · simp only [h0, if_false]
    refine AnswersWith.bind AnswersWith.get fun g so => AnswersWith.pure ?_
    have hCg : Closed g.Lt C := by rw [so.Lt]; exact hC
    rw [C21_isChain_whole it (so.valid v) C hCg, so.Lt,
      hkey (Finset.card_pos.1 (Nat.pos_of_ne_zero h0))]

/-- the V shape 0 < 1, 0 < 2 -/
def exV : Heap :=
  let h1 := (Heap.empty.newEvent Iter.asc (some (.int 1)) [] []).2
  let h2 := (h1.newEvent Iter.asc (some (.int 2)) [0] []).2
  (h2.newEvent Iter.asc (some (.int 3)) [0] []).2

theorem exV_reach : LinkReachable exV := by
  refine .new _ _ _ _ _ (.new _ _ _ _ _ (.new _ _ _ _ _ .start ?_ ?_ ?_) ?_ ?_ ?_) ?_ ?_ ?_ <;>
    simp [Heap.Exists] <;> decide

/-- the crown 0, 1 < 2, 3 -/
def exCrown : Heap :=
  let h1 := (Heap.empty.newEvent Iter.asc (some (.int 1)) [] []).2
  let h2 := (h1.newEvent Iter.asc (some (.int 2)) [] []).2
  let h3 := (h2.newEvent Iter.asc (some (.int 3)) [0, 1] []).2
  (h3.newEvent Iter.asc (some (.int 4)) [0, 1] []).2

theorem exCrown_reach : LinkReachable exCrown := by
  refine .new _ _ _ _ _ (.new _ _ _ _ _ (.new _ _ _ _ _ (.new _ _ _ _ _ .start ?_ ?_ ?_) ?_ ?_ ?_)
    ?_ ?_ ?_) ?_ ?_ ?_ <;>
    simp [Heap.Exists] <;> decide

theorem not_path_of_spacelike (v : h.Valid) {s : Finset EId} {a b : EId} (ha : a ∈ s) (hb : b ∈ s)
    (hab : a ≠ b) (h1 : ¬ h.Lt a b) (h2 : ¬ h.Lt b a) : ¬ IsLinkPathSet h.Lt s := by
  intro hp
  have := ((isLinkPathSet_iff v s ⟨a, ha⟩).1 hp).1 a ha b hb hab
  rcases this with h3 | h3
  exacts [h1 h3, h2 h3]

/-- **C22 fails for sets that are not chains.** `isPath` accepts a V shape and a closed fence, which contain spacelike
events, for every iteration order. -/
theorem C22_refuted :
    (∃ h, LinkReachable h ∧ ¬ IsLinkPathSet h.Lt {0, 1, 2} ∧
      ∀ it C, h.Answers (isPath it C (some {0, 1, 2})) true) ∧
    (∃ h, LinkReachable h ∧ ¬ IsLinkPathSet h.Lt {0, 1, 2, 3} ∧
      ∀ it C, h.Answers (isPath it C (some {0, 1, 2, 3})) true) := by
  refine ⟨⟨exV, exV_reach, not_path_of_spacelike exV_reach.reachable.valid (a := 1) (b := 2)
    (by decide) (by decide) (by decide) (by decide) (by decide), fun it C => ?_⟩,
    ⟨exCrown, exCrown_reach, not_path_of_spacelike exCrown_reach.reachable.valid (a := 0) (b := 1)
    (by decide) (by decide) (by decide) (by decide) (by decide), fun it C => ?_⟩⟩
  · have := C22_isPath_degrees it exV_reach.reachable.valid C {0, 1, 2} (by decide)
    rwa [decide_eq_true (by decide)] at this
  · have := C22_isPath_degrees it exCrown_reach.reachable.valid C {0, 1, 2, 3} (by decide)
    rwa [decide_eq_true (by decide)] at this

/-- 0 < 1 < 2 is a chain; all three events are a path, the two ends are not -/
example : exChain3.Valid ∧ IsChainSet exChain3.Lt {0, 1, 2} ∧
    ((isPath Iter.asc ∅ (some {0, 1, 2})).run exChain3).1 = true ∧
    ((isPath Iter.asc ∅ (some {0, 2})).run exChain3).1 = false :=
  ⟨exChain3_reach.reachable.valid, by unfold IsChainSet Related; decide, by decide, by decide⟩

end Causets
