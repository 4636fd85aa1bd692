import Verif.SpecState

/-! # Basic lemmas on the causal order and on creating events -/

namespace Causets

open Function (update)

namespace Heap

variable {h : Heap}

theorem lt_iff (h : Heap) (a b : EId) : h.Lt a b ↔ a ∈ h.prec b := by simp [Lt, lt]

theorem Valid.mem_prec (_ : h.Valid) {a b : EId} : a ∈ h.prec b ↔ h.Lt a b := (h.lt_iff a b).symm

theorem Valid.mem_succ (v : h.Valid) {a b : EId} : b ∈ h.succ a ↔ h.Lt a b := v.future_eq a b

theorem Valid.mem_cone (v : h.Valid) {a b : EId} :
    a ∈ h.cone b ↔ h.Lt a b ∨ a = b ∨ h.Lt b a := by
  simp only [cone, Finset.mem_union, Finset.mem_singleton, v.mem_prec, v.mem_succ, or_assoc]

/-- Constructor for `Valid` in terms of the stored sets. -/
theorem Valid.mk' (hb : ∀ a b, a ∈ h.prec b → a < h.next ∧ b < h.next)
    (hm : ∀ a b, a ∈ h.prec b ↔ b ∈ h.succ a) (hi : ∀ a, a ∉ h.prec a)
    (ht : ∀ a b c, a ∈ h.prec b → b ∈ h.prec c → a ∈ h.prec c) : h.Valid where
  order := ⟨fun a => by rw [lt_iff]; exact hi a, fun a b c => by
    simp only [lt_iff]; exact ht a b c⟩
  past_eq a b := (h.lt_iff a b).symm
  future_eq a b := by rw [lt_iff, hm]; rfl
  exists_of_lt a b := by rw [lt_iff]; exact hb a b

theorem Valid.irrefl (v : h.Valid) (a : EId) : ¬ h.Lt a a := v.order.irrefl a
theorem Valid.trans (v : h.Valid) {a b c : EId} (h1 : h.Lt a b) (h2 : h.Lt b c) : h.Lt a c :=
  v.order.trans a b c h1 h2
theorem Valid.asymm (v : h.Valid) {a b : EId} (h1 : h.Lt a b) : ¬ h.Lt b a :=
  fun h2 => v.irrefl a (v.trans h1 h2)
theorem Valid.ne (v : h.Valid) {a b : EId} (h1 : h.Lt a b) : a ≠ b := by
  rintro rfl; exact v.irrefl _ h1

/-! ## Changes that keep the order -/

theorem SameOrder.refl (h : Heap) : h.SameOrder h := ⟨rfl, rfl, rfl, rfl⟩
theorem SameOrder.trans {h1 h2 h3 : Heap} (a : h1.SameOrder h2) (b : h2.SameOrder h3) :
    h1.SameOrder h3 :=
  ⟨b.next.trans a.next, b.label.trans a.label, b.prec.trans a.prec, b.succ.trans a.succ⟩
theorem SameOrder.symm {h1 h2 : Heap} (a : h1.SameOrder h2) : h2.SameOrder h1 :=
  ⟨a.next.symm, a.label.symm, a.prec.symm, a.succ.symm⟩

theorem SameOrder.lt {h1 h2 : Heap} (a : h1.SameOrder h2) : h2.lt = h1.lt := by
  funext x y; simp [Heap.lt, a.prec]

theorem SameOrder.Lt {h1 h2 : Heap} (a : h1.SameOrder h2) : h2.Lt = h1.Lt := by
  funext x y; simp [Heap.Lt, a.lt]

theorem SameOrder.valid {h1 h2 : Heap} (a : h1.SameOrder h2) (v : h1.Valid) : h2.Valid where
  order := by rw [a.Lt]; exact v.order
  past_eq x y := by rw [a.Lt]; simp only [past, a.prec]; exact v.past_eq x y
  future_eq x y := by rw [a.Lt]; simp only [future, a.succ]; exact v.future_eq x y
  exists_of_lt x y := by rw [a.Lt]; simp only [Exists, a.next]; exact v.exists_of_lt x y

theorem SameOrder.isLink {h1 h2 : Heap} (a : h1.SameOrder h2) : h2.isLink = h1.isLink := by
  funext x y; simp only [Heap.isLink, a.prec, a.succ]

theorem SameOrder.pastLinks {h1 h2 : Heap} (a : h1.SameOrder h2) (e : EId) :
    h2.pastLinks e = h1.pastLinks e := by
  simp only [Heap.pastLinks, a.prec, a.isLink]

theorem SameOrder.futureLinks {h1 h2 : Heap} (a : h1.SameOrder h2) (e : EId) :
    h2.futureLinks e = h1.futureLinks e := by
  simp only [Heap.futureLinks, a.succ, a.isLink]

theorem link_sameOrder (h : Heap) (e : EId) : h.SameOrder (h.link e) := ⟨rfl, rfl, rfl, rfl⟩

theorem unlink_sameOrder (h : Heap) (e : EId) : h.SameOrder (h.unlink e).2 := by
  unfold unlink
  cases h.lprec e with
  | none => exact SameOrder.refl _
  | some s => 
    dsimp only
    cases h.lsucc e with
    | none => exact ⟨rfl, rfl, rfl, rfl⟩
    | some t => exact ⟨rfl, rfl, rfl, rfl⟩

/-! ## Links -/

theorem isLink_iff (v : h.Valid) (a b : EId) :
    h.isLink a b = true ↔ ∀ c, ¬ (h.Lt a c ∧ h.Lt c b) := by
  simp only [isLink, decide_eq_true_eq, Finset.eq_empty_iff_forall_notMem, Finset.mem_inter,
    v.mem_succ, v.mem_prec]

theorem mem_pastLinks (v : h.Valid) (x e : EId) : x ∈ h.pastLinks e ↔ Covers h.Lt x e := by
  simp only [pastLinks, Finset.mem_filter, v.mem_prec, isLink_iff v, Covers]

theorem mem_futureLinks (v : h.Valid) (x e : EId) : x ∈ h.futureLinks e ↔ Covers h.Lt e x := by
  simp only [futureLinks, Finset.mem_filter, v.mem_succ, isLink_iff v, Covers]

/-! ## Creating events -/

theorem addToFuture_succ (h : Heap) (self other : EId) :
    (h.addToFuture self other).2.succ = update h.succ self (insert other (h.succ self)) := by
  unfold addToFuture
  by_cases ho : other ∈ h.succ self
  · simp [ho]
  · simp only [ho, if_false]; split <;> rfl

theorem addToFuture_prec (h : Heap) (self other : EId) :
    (h.addToFuture self other).2.prec = h.prec := by
  unfold addToFuture; split <;> [rfl; (dsimp only; split <;> rfl)]
theorem addToFuture_next (h : Heap) (self other : EId) :
    (h.addToFuture self other).2.next = h.next := by
  unfold addToFuture; split <;> [rfl; (dsimp only; split <;> rfl)]
theorem addToFuture_label (h : Heap) (self other : EId) :
    (h.addToFuture self other).2.label = h.label := by
  unfold addToFuture; split <;> [rfl; (dsimp only; split <;> rfl)]
theorem addToFuture_lprec (h : Heap) (self other : EId) :
    (h.addToFuture self other).2.lprec = h.lprec := by
  unfold addToFuture; split <;> [rfl; (dsimp only; split <;> rfl)]

theorem addToFuture_lsucc (h : Heap) (self other : EId) (ho : other ∉ h.succ self) :
    (h.addToFuture self other).2.lsucc =
      if h.hasBeenLinked self && h.isLink self other then
        update h.lsucc self ((h.lsucc self).map (fun s => insert other (s \ h.succ other)))
      else h.lsucc := by
  unfold addToFuture
  simp only [ho, if_false]; split <;> rfl

theorem addToPast_prec (h : Heap) (self other : EId) :
    (h.addToPast self other).2.prec = update h.prec self (insert other (h.prec self)) := by
  unfold addToPast
  by_cases ho : other ∈ h.prec self
  · simp [ho]
  · simp only [ho, if_false]; split <;> rfl
theorem addToPast_succ (h : Heap) (self other : EId) :
    (h.addToPast self other).2.succ = h.succ := by
  unfold addToPast; split <;> [rfl; (dsimp only; split <;> rfl)]
theorem addToPast_next (h : Heap) (self other : EId) :
    (h.addToPast self other).2.next = h.next := by
  unfold addToPast; split <;> [rfl; (dsimp only; split <;> rfl)]
theorem addToPast_label (h : Heap) (self other : EId) :
    (h.addToPast self other).2.label = h.label := by
  unfold addToPast; split <;> [rfl; (dsimp only; split <;> rfl)]
theorem addToPast_lsucc (h : Heap) (self other : EId) :
    (h.addToPast self other).2.lsucc = h.lsucc := by
  unfold addToPast; split <;> [rfl; (dsimp only; split <;> rfl)]
theorem addToPast_lprec (h : Heap) (self other : EId) (ho : other ∉ h.prec self) :
    (h.addToPast self other).2.lprec =
      if h.hasBeenLinked self && h.isLink other self then
        update h.lprec self ((h.lprec self).map (fun s => insert other (s \ h.prec other)))
      else h.lprec := by
  unfold addToPast
  simp only [ho, if_false]; split <;> rfl

/-- first loop of the constructor, in closed form -/
theorem foldl_addToFuture (self : EId) (L : List EId) (hn : L.Nodup) (hs : self ∉ L) (h : Heap)
    (hf : ∀ e ∈ L, self ∉ h.succ e) :
    let g := L.foldl (fun g e => (g.addToFuture e self).2) h
    g.next = h.next ∧ g.label = h.label ∧ g.prec = h.prec ∧ g.lprec = h.lprec ∧
    (∀ e, g.succ e = if e ∈ L then insert self (h.succ e) else h.succ e) ∧
    (∀ e, g.lsucc e = if e ∈ L ∧ h.hasBeenLinked e = true ∧ h.isLink e self = true then
      (h.lsucc e).map (fun s => insert self (s \ h.succ self)) else h.lsucc e) := by
  induction L generalizing h with
  | nil => simp
  | cons x xs ih =>
    simp only [List.foldl_cons]
    rw [List.nodup_cons] at hn
    have hx : self ∉ h.succ x := hf x (by simp)
    have hxs : self ≠ x := by rintro rfl; simp at hs
    have hs' : self ∉ xs := fun hh => hs (by simp [hh])
    set h1 := (h.addToFuture x self).2 with h1def
    have e1 : h1.succ = update h.succ x (insert self (h.succ x)) := addToFuture_succ ..
    have e2 : h1.prec = h.prec := addToFuture_prec ..
    have e3 : h1.next = h.next := addToFuture_next ..
    have e4 : h1.label = h.label := addToFuture_label ..
    have e5 : h1.lprec = h.lprec := addToFuture_lprec ..
    have e6 := addToFuture_lsucc h x self hx
    rw [← h1def] at e6
    have hne : ∀ e ∈ xs, e ≠ x := fun e he => by rintro rfl; exact hn.1 he
    have := ih hn.2 hs' h1 (fun e he => by
      rw [e1, Function.update_of_ne (hne e he)]; exact hf e (by simp [he]))
    obtain ⟨a1, a2, a3, a4, a5, a6⟩ := this
    refine ⟨a1.trans e3, a2.trans e4, a3.trans e2, a4.trans e5, fun e => ?_, fun e => ?_⟩
    · rw [a5 e, e1]
      by_cases hex : e = x
      · subst hex; simp [hn.1]
      · simp [hex]
    · rw [a6 e]
      by_cases hex : e = x
      · subst hex
        simp only [hn.1, false_and, if_false, List.mem_cons, true_or, true_and]
        rw [e6]
        by_cases hc : h.hasBeenLinked e = true ∧ h.isLink e self = true
        · simp [hc]
        · rw [if_neg (by simpa using hc), if_neg hc]
      · have l1 : h1.lsucc e = h.lsucc e := by
          rw [e6]; split
          · rw [Function.update_of_ne hex]
          · rfl
        have l2 : h1.hasBeenLinked e = h.hasBeenLinked e := by
          simp [hasBeenLinked, e5, l1]
        have l3 : h1.isLink e self = h.isLink e self := by
          simp [isLink, e1, e2, Function.update_of_ne hex]
        have l4 : h1.succ self = h.succ self := by
          rw [e1, Function.update_of_ne hxs]
        simp [l1, l2, l3, l4, hex]

/-- second loop of the constructor, in closed form -/
theorem foldl_addToPast (self : EId) (L : List EId) (hn : L.Nodup) (hs : self ∉ L) (h : Heap)
    (hf : ∀ e ∈ L, self ∉ h.prec e) :
    let g := L.foldl (fun g e => (g.addToPast e self).2) h
    g.next = h.next ∧ g.label = h.label ∧ g.succ = h.succ ∧ g.lsucc = h.lsucc ∧
    (∀ e, g.prec e = if e ∈ L then insert self (h.prec e) else h.prec e) ∧
    (∀ e, g.lprec e = if e ∈ L ∧ h.hasBeenLinked e = true ∧ h.isLink self e = true then
      (h.lprec e).map (fun s => insert self (s \ h.prec self)) else h.lprec e) := by
  induction L generalizing h with
  | nil => simp
  | cons x xs ih =>
    simp only [List.foldl_cons]
    rw [List.nodup_cons] at hn
    have hx : self ∉ h.prec x := hf x (by simp)
    have hxs : self ≠ x := by rintro rfl; simp at hs
    have hs' : self ∉ xs := fun hh => hs (by simp [hh])
    set h1 := (h.addToPast x self).2 with h1def
    have e1 : h1.prec = update h.prec x (insert self (h.prec x)) := addToPast_prec ..
    have e2 : h1.succ = h.succ := addToPast_succ ..
    have e3 : h1.next = h.next := addToPast_next ..
    have e4 : h1.label = h.label := addToPast_label ..
    have e5 : h1.lsucc = h.lsucc := addToPast_lsucc ..
    have e6 := addToPast_lprec h x self hx
    rw [← h1def] at e6
    have hne : ∀ e ∈ xs, e ≠ x := fun e he => by rintro rfl; exact hn.1 he
    have := ih hn.2 hs' h1 (fun e he => by
      rw [e1, Function.update_of_ne (hne e he)]; exact hf e (by simp [he]))
    obtain ⟨a1, a2, a3, a4, a5, a6⟩ := this
    refine ⟨a1.trans e3, a2.trans e4, a3.trans e2, a4.trans e5, fun e => ?_, fun e => ?_⟩
    · rw [a5 e, e1]
      by_cases hex : e = x
      · subst hex; simp [hn.1]
      · simp [hex]
    · rw [a6 e]
      by_cases hex : e = x
      · subst hex
        simp only [hn.1, false_and, if_false, List.mem_cons, true_or, true_and]
        rw [e6]
        by_cases hc : h.hasBeenLinked e = true ∧ h.isLink self e = true
        · simp [hc]
        · rw [if_neg (by simpa using hc), if_neg hc]
      · have l1 : h1.lprec e = h.lprec e := by
          rw [e6]; split
          · rw [Function.update_of_ne hex]
          · rfl
        have l2 : h1.hasBeenLinked e = h.hasBeenLinked e := by
          simp [hasBeenLinked, e5, l1]
        have l3 : h1.isLink self e = h.isLink self e := by
          simp [isLink, e1, e2, Function.update_of_ne hex]
        have l4 : h1.prec self = h.prec self := by
          rw [e1, Function.update_of_ne hxs]
        simp [l1, l2, l3, l4, hex]

theorem foldl_union_mem {α : Type} (f : α → Finset EId) (L : List α) (acc : Finset EId) (x : EId) :
    x ∈ L.foldl (fun acc e => acc ∪ f e) acc ↔ x ∈ acc ∨ ∃ e ∈ L, x ∈ f e := by
  induction L generalizing acc with
  | nil => simp
  | cons a L ih =>
    rw [List.foldl_cons, ih]
    simp only [Finset.mem_union, List.mem_cons, exists_eq_or_imp, or_assoc]

/-- what the constructor does to the stored sets, in closed form -/
theorem newEvent_fields (it : Iter) (h : Heap) (v : h.Valid) (l : Option Label) (P F : List EId)
    (hP : ∀ p ∈ P, h.Exists p) (hF : ∀ f ∈ F, h.Exists f) :
    let e := h.next
    let D := P.foldl (fun acc x => acc ∪ h.presentOrPast x) ∅
    let U := F.foldl (fun acc x => acc ∪ h.presentOrFuture x) ∅
    let g := (h.newEvent it l P F).2
    (h.newEvent it l P F).1 = e ∧ g.next = h.next + 1 ∧ g.label = update h.label e l ∧
    (∀ x, g.prec x = if x = e then D else if x ∈ U then insert e (h.prec x) else h.prec x) ∧
    (∀ x, g.succ x = if x = e then U else if x ∈ D then insert e (h.succ x) else h.succ x) ∧
    (g.lprec e = none ∧ ∀ x, x ≠ e →
      ((x ∈ U ∧ h.hasBeenLinked x = true ∧ (∀ c, ¬ (c ∈ U ∧ h.Lt c x))) →
        g.lprec x = (h.lprec x).map (fun s => insert e (s \ D))) ∧
      (¬ (x ∈ U ∧ h.hasBeenLinked x = true ∧ (∀ c, ¬ (c ∈ U ∧ h.Lt c x))) →
        g.lprec x = h.lprec x)) ∧
    (g.lsucc e = none ∧ ∀ x, x ≠ e →
      ((x ∈ D ∧ h.hasBeenLinked x = true ∧ (∀ c, ¬ (h.Lt x c ∧ c ∈ D))) →
        g.lsucc x = (h.lsucc x).map (fun s => insert e (s \ U))) ∧
      (¬ (x ∈ D ∧ h.hasBeenLinked x = true ∧ (∀ c, ¬ (h.Lt x c ∧ c ∈ D))) →
        g.lsucc x = h.lsucc x)) := by
  intro e D U g
  have hD : ∀ x ∈ D, x < h.next := by
    intro x hx
    rw [foldl_union_mem] at hx
    rcases hx with hx | ⟨p, hp, hx⟩
    · simp at hx
    · simp only [presentOrPast, Finset.mem_union, Finset.mem_singleton, v.mem_prec] at hx
      rcases hx with hx | rfl
      · exact (v.exists_of_lt _ _ hx).1
      · exact hP _ hp
  have hU : ∀ x ∈ U, x < h.next := by
    intro x hx
    rw [foldl_union_mem] at hx
    rcases hx with hx | ⟨p, hp, hx⟩
    · simp at hx
    · simp only [presentOrFuture, Finset.mem_union, Finset.mem_singleton, v.mem_succ] at hx
      rcases hx with hx | rfl
      · exact (v.exists_of_lt _ _ hx).2
      · exact hF _ hp
  set h1 := h.alloc l P F with h1def
  have p1 : h1.prec = update h.prec e D := rfl
  have s1 : h1.succ = update h.succ e U := rfl
  have lp1 : h1.lprec = update h.lprec e none := rfl
  have ls1 : h1.lsucc = update h.lsucc e none := rfl
  have n1 : h1.next = h.next + 1 := rfl
  have lb1 : h1.label = update h.label e l := rfl
  have p1e : h1.prec e = D := by simp [p1]
  have s1e : h1.succ e = U := by simp [s1]
  set L0 := it.ord [e, 0] (h1.prec e) with L0def
  have mL0 : ∀ x, x ∈ L0 ↔ x ∈ D := fun x => by rw [L0def, it.mem, p1e]
  set h2 := L0.foldl (fun g x => (g.addToFuture x e).2) h1 with h2def
  obtain ⟨a1, a2, a3, a4, a5, a6⟩ := foldl_addToFuture e L0 (it.nodup _ _)
    (fun hh => by have := hD _ ((mL0 _).1 hh); exact absurd this (lt_irrefl _)) h1
    (fun x hx => by
      have hx' := hD x ((mL0 x).1 hx)
      rw [s1, Function.update_of_ne (Nat.ne_of_lt hx'), v.mem_succ]
      intro hl
      exact absurd (v.exists_of_lt _ _ hl).2 (lt_irrefl _))
  simp only [← h2def] at a1 a2 a3 a4 a5 a6
  have eD : e ∉ D := fun hh => absurd (hD _ hh) (lt_irrefl _)
  have eU : e ∉ U := fun hh => absurd (hU _ hh) (lt_irrefl _)
  have s2e : h2.succ e = U := by rw [a5 e, if_neg (by rw [mL0]; exact eD), s1e]
  set L1 := it.ord [e, 1] (h2.succ e) with L1def
  have mL1 : ∀ x, x ∈ L1 ↔ x ∈ U := fun x => by rw [L1def, it.mem, s2e]
  have gdef : g = L1.foldl (fun g x => (g.addToPast x e).2) h2 := rfl
  obtain ⟨b1, b2, b3, b4, b5, b6⟩ := foldl_addToPast e L1 (it.nodup _ _)
    (fun hh => eU ((mL1 _).1 hh)) h2
    (fun x hx => by
      have hx' := hU x ((mL1 x).1 hx)
      rw [a3, p1, Function.update_of_ne (Nat.ne_of_lt hx'), v.mem_prec]
      intro hl
      exact absurd (v.exists_of_lt _ _ hl).1 (lt_irrefl _))
  simp only [← gdef] at b1 b2 b3 b4 b5 b6
  refine ⟨rfl, b1.trans (a1.trans n1), b2.trans (a2.trans lb1), fun x => ?_, fun x => ?_,
    ⟨?_, fun x hx => ?_⟩, ⟨?_, fun x hx => ?_⟩⟩
  · rw [b5 x, a3]; simp only [mL1]
    by_cases hx : x = e
    · subst hx; simp [eU, p1e]
    · simp [hx, p1]
  · rw [b3, a5 x]; simp only [mL0]
    by_cases hx : x = e
    · subst hx; simp [eD, s1e]
    · simp [hx, s1]
  · rw [b6 e, a4, lp1]
    rw [if_neg (fun hh => eU ((mL1 e).1 hh.1))]; simp
  · rw [b6 x, a4, lp1, Function.update_of_ne hx]
    have q1 : h2.hasBeenLinked x = h.hasBeenLinked x := by
      have : (h2.lsucc x).isSome = (h.lsucc x).isSome := by
        rw [a6 x, ls1, Function.update_of_ne hx]; split <;> simp
      simp [hasBeenLinked, this, a4, lp1, Function.update_of_ne hx]
    have q2 : h2.isLink e x = true ↔ ∀ c, ¬ (c ∈ U ∧ h.Lt c x) := by
      simp only [isLink, s2e, a3, p1, Function.update_of_ne hx, decide_eq_true_eq,
        Finset.eq_empty_iff_forall_notMem, Finset.mem_inter, v.mem_prec]
    have q3 : h2.prec e = D := by rw [a3, p1e]
    rw [q1, q3]
    constructor
    · intro hc; rw [if_pos ⟨(mL1 x).2 hc.1, hc.2.1, q2.2 hc.2.2⟩]
    · intro hc; rw [if_neg (fun hh => hc ⟨(mL1 x).1 hh.1, hh.2.1, q2.1 hh.2.2⟩)]
  · rw [b4, a6 e, ls1]
    rw [if_neg (fun hh => eD ((mL0 e).1 hh.1))]; simp
  · rw [b4, a6 x, ls1, Function.update_of_ne hx]
    have q1 : h1.hasBeenLinked x = h.hasBeenLinked x := by
      simp [hasBeenLinked, lp1, ls1, Function.update_of_ne hx]
    have q2 : h1.isLink x e = true ↔ ∀ c, ¬ (h.Lt x c ∧ c ∈ D) := by
      simp only [isLink, p1e, s1, Function.update_of_ne hx, decide_eq_true_eq,
        Finset.eq_empty_iff_forall_notMem, Finset.mem_inter, v.mem_succ]
    rw [q1, s1e]
    constructor
    · intro hc; rw [if_pos ⟨(mL0 x).2 hc.1, hc.2.1, q2.2 hc.2.2⟩]
    · intro hc; rw [if_neg (fun hh => hc ⟨(mL0 x).1 hh.1, hh.2.1, q2.1 hh.2.2⟩)]

/-- relations after the constructor -/
theorem newEvent_lt (it : Iter) (h : Heap) (v : h.Valid) (l : Option Label) (P F : List EId)
    (hP : ∀ p ∈ P, h.Exists p) (hF : ∀ f ∈ F, h.Exists f) (a b : EId) :
    (h.newEvent it l P F).2.Lt a b ↔
      h.Lt a b ∨ (b = h.next ∧ ∃ p ∈ P, a = p ∨ h.Lt a p) ∨
        (a = h.next ∧ ∃ f ∈ F, b = f ∨ h.Lt f b) := by
  obtain ⟨-, -, -, hp, -, -, -⟩ := newEvent_fields it h v l P F hP hF
  rw [lt_iff, hp b]
  have hnb : ¬ h.Lt a h.next := fun hh => absurd (v.exists_of_lt _ _ hh).2 (lt_irrefl _)
  have hna : ∀ c, ¬ h.Lt h.next c := fun c hh => absurd (v.exists_of_lt _ _ hh).1 (lt_irrefl _)
  have hDm : a ∈ P.foldl (fun acc x => acc ∪ h.presentOrPast x) ∅ ↔
      ∃ p ∈ P, a = p ∨ h.Lt a p := by
    rw [foldl_union_mem]
    simp only [Finset.notMem_empty, false_or, presentOrPast, Finset.mem_union,
      Finset.mem_singleton, v.mem_prec]
    constructor <;> rintro ⟨p, hp, h1⟩ <;> exact ⟨p, hp, h1.symm⟩
  have hUm : b ∈ F.foldl (fun acc x => acc ∪ h.presentOrFuture x) ∅ ↔
      ∃ f ∈ F, b = f ∨ h.Lt f b := by
    rw [foldl_union_mem]
    simp only [Finset.notMem_empty, false_or, presentOrFuture, Finset.mem_union,
      Finset.mem_singleton, v.mem_succ]
    constructor <;> rintro ⟨p, hp, h1⟩ <;> exact ⟨p, hp, h1.symm⟩
  by_cases hb : b = h.next
  · subst hb
    simp only [if_true, hDm, hnb, true_and, false_or]
    constructor
    · exact Or.inl
    · rintro (h1 | ⟨-, f, hf, h1 | h1⟩)
      · exact h1
      · exact absurd (hF f hf) (by rw [← h1]; exact lt_irrefl _)
      · exact absurd (v.exists_of_lt _ _ h1).2 (lt_irrefl _)
  · simp only [hb, if_false, hUm, false_and, false_or]
    split_ifs with hu
    · simp only [Finset.mem_insert, v.mem_prec]
      constructor
      · rintro (h1 | h1)
        · exact Or.inr ⟨h1, hu⟩
        · exact Or.inl h1
      · rintro (h1 | h1)
        · exact Or.inr h1
        · exact Or.inl h1.1
    · simp only [v.mem_prec]
      constructor
      · exact Or.inl
      · rintro (h1 | h1)
        · exact h1
        · exact absurd h1.2 hu

end Heap

end Causets
