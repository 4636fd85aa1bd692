import Verif.Props.MergeLink

/-! # C38: what `Causet.link` does for any set of events -/

namespace Causets

open Heap
open Function (update)

variable {h : Heap}

theorem linkAddSucc_err (b : EId) (L : List EId) : ∀ (h : Heap) (a : EId), a ∈ L → h.lsucc a = none →
    (linkAddSucc b L h).1 = .error .attributeError := by
  induction L with
  | nil => intro h a ha; simp at ha
  | cons x xs ih =>
    intro h a ha hn
    rw [linkAddSucc]
    cases hx : h.lsucc x with
    | none => rfl
    | some t =>
      have hne : a ≠ x := by rintro rfl; rw [hn] at hx; cases hx
      have ha' : a ∈ xs := by rcases List.mem_cons.1 ha with rfl | ha; exacts [absurd rfl hne, ha]
      exact ih _ a ha' (by simp only [Function.update_of_ne hne]; exact hn)

theorem linkAddSucc_keeps_none (b : EId) (L : List EId) : ∀ (h : Heap) (a : EId), h.lsucc a = none →
    (linkAddSucc b L h).2.lsucc a = none ∧ ((linkAddSucc b L h).1 = .ok () ∨ (linkAddSucc b L h).1 = .error .attributeError) := by
  induction L with
  | nil => intro h a hn; exact ⟨hn, Or.inl rfl⟩
  | cons x xs ih =>
    intro h a hn
    rw [linkAddSucc]
    cases hx : h.lsucc x with
    | none => exact ⟨hn, Or.inr rfl⟩
    | some t =>
      have hne : a ≠ x := by rintro rfl; rw [hn] at hx; cases hx
      exact ih _ a (by simp only [Function.update_of_ne hne]; exact hn)

theorem linkCompute_err (it : Iter) (a b : EId) (L : List EId) : ∀ (g : Heap), b ∈ L → a ∈ g.pastLinks b →
    g.lsucc a = none → (linkCompute it L g).1 = .error .attributeError := by
  induction L with
  | nil => intro g hb; simp at hb
  | cons x xs ih =>
    intro g hb ha hn
    rw [linkCompute]
    set g1 : Heap := { g with lprec := update g.lprec x (some (g.pastLinks x)) } with hg1
    obtain ⟨k1, k2⟩ := linkAddSucc_keeps_none x (it.ord [x, 291] (g.pastLinks x)) g1 a hn
    have so : g.SameOrder (linkAddSucc x (it.ord [x, 291] (g.pastLinks x)) g1).2 :=
      (⟨rfl, rfl, rfl, rfl⟩ : g.SameOrder g1).trans (linkAddSucc_sameOrder _ _ _)
    rcases hq : linkAddSucc x (it.ord [x, 291] (g.pastLinks x)) g1 with ⟨q1, q2⟩
    rw [hq] at k1 k2 so
    rcases List.mem_cons.1 hb with rfl | hb
    · have := linkAddSucc_err b (it.ord [b, 291] (g.pastLinks b)) g1 a ((it.mem _ _ _).2 ha) hn
      rw [hq] at this
      dsimp only at this
      subst this
      rfl
    · rcases k2 with k2 | k2 <;> dsimp only at k2 <;> subst k2
      · exact ih q2 hb (by rw [so.pastLinks]; exact ha) k1
      · rfl

theorem linkCompute_any (it : Iter) (v : h.Valid) (lx : h.LinksExact) (C : Finset EId)
    (hC : ∀ b ∈ C, ∀ a, Covers h.Lt a b → a ∈ C ∨ (h.lsucc a).isSome) (L : List EId) :
    ∀ (D : Finset EId) (g : Heap), (∀ b ∈ L, b ∈ C) → D ⊆ C → LinkInv h C D g →
    (linkCompute it L g).1 = .ok () ∧ LinkInv h C (D ∪ L.toFinset) (linkCompute it L g).2 := by
  induction L with
  | nil => intro D g _ _ inv; exact ⟨rfl, by simpa [linkCompute] using inv⟩
  | cons b bs ih =>
    intro D g hL hD inv
    have hbC := hL b (by simp)
    have hpl : g.pastLinks b = h.pastLinks b := inv.same.pastLinks b
    have hsub : ∀ a ∈ h.pastLinks b, a ∈ C ∨ (h.lsucc a).isSome := fun a ha =>
      hC b hbC a ((mem_pastLinks v a b).1 ha)
    let g1 : Heap := { g with lprec := update g.lprec b (some (h.pastLinks b)) }
    obtain ⟨k1, k2, k3⟩ := linkAddSucc_ok b (it.ord [b, 291] (h.pastLinks b)) g1 (fun a ha => by
      rw [it.mem] at ha
      show (g.lsucc a).isSome
      rw [inv.lsucc]
      split_ifs with haC
      · rfl
      · exact (hsub a ha).resolve_left haC)
    have so1 : h.SameOrder (linkAddSucc b (it.ord [b, 291] (h.pastLinks b)) g1).2 :=
      (inv.same.trans (⟨rfl, rfl, rfl, rfl⟩ : g.SameOrder g1)).trans (linkAddSucc_sameOrder _ _ _)
    have inv' : LinkInv h C (insert b D) (linkAddSucc b (it.ord [b, 291] (h.pastLinks b)) g1).2 := by
      refine ⟨so1, fun x => ?_, fun x => ?_⟩
      · rw [k2]
        show update g.lprec b (some (h.pastLinks b)) x = _
        by_cases hx : x = b
        · subst hx; simp
        · rw [Function.update_of_ne hx, inv.lprec]
          simp [hx]
      · rw [k3]
        show (if _ then (g.lsucc x).map _ else g.lsucc x) = _
        rw [inv.lsucc]
        by_cases hx : x ∈ C
        · simp only [hx, if_true, it.mem, Option.map_some]
          by_cases hxb : x ∈ h.pastLinks b
          · rw [if_pos hxb, Finset.inter_insert_of_mem]
            exact (mem_futureLinks v b x).2 ((mem_pastLinks v x b).1 hxb)
          · rw [if_neg hxb, Finset.inter_insert_of_notMem]
            exact fun hc => hxb ((mem_pastLinks v x b).2 ((mem_futureLinks v b x).1 hc))
        · simp only [hx, if_false, it.mem]
          split_ifs with hxb
          · cases hs : h.lsucc x with
            | none => rfl
            | some s =>
              have : b ∈ s := (lx.future x s hs b).2 ((mem_pastLinks v x b).1 hxb)
              simp [this]
          · rfl
    obtain ⟨r1, r2⟩ := ih (insert b D) _ (fun x hx => hL x (by simp [hx]))
      (by intro x hx; rcases Finset.mem_insert.1 hx with rfl | hx <;> [exact hbC; exact hD hx]) inv'
    have e : linkCompute it (b :: bs) g =
        linkCompute it bs (linkAddSucc b (it.ord [b, 291] (h.pastLinks b)) g1).2 := by
      conv_lhs => unfold linkCompute
      simp only [hpl]
      generalize hq : linkAddSucc b (it.ord [b, 291] (h.pastLinks b)) g1 = q at k1
      obtain ⟨q1, q2⟩ := q
      simp only at k1
      subst k1
      rfl
    rw [e]
    refine ⟨r1, ?_⟩
    convert r2 using 1
    ext x; simp

/-- **C38, any set: outcome.** If the link memory is exact, `link()` of a set of events (closed or not) succeeds exactly if every
event linked below an event of the set is in the set or has link memory itself; otherwise it raises AttributeError. -/
theorem C38_outcome (it : Iter) (v : h.Valid) (lx : h.LinksExact) (C : Finset EId) :
    ((causetLink it C h).1 = .ok () ↔ ∀ b ∈ C, ∀ a, Covers h.Lt a b → a ∈ C ∨ h.hasBeenLinked a = true) ∧
    ((causetLink it C h).1 ≠ .ok () → (causetLink it C h).1 = .error .attributeError) := by
  obtain ⟨c1, c2⟩ := linkClear_fields (it.ord [286] C) h
  have inv0 : LinkInv h C ∅ (linkClear (it.ord [286] C) h) := by
    refine ⟨linkClear_sameOrder _ _, fun x => ?_, fun x => ?_⟩
    · rw [c1]; simp
    · rw [c2]; simp [it.mem]
  have lk : ∀ a, h.hasBeenLinked a = true ↔ (h.lsucc a).isSome := by
    intro a
    have := lx.both a
    cases h1 : h.lprec a <;> cases h2 : h.lsucc a <;> simp_all [hasBeenLinked]
  by_cases hc : ∀ b ∈ C, ∀ a, Covers h.Lt a b → a ∈ C ∨ h.hasBeenLinked a = true
  · have r := (linkCompute_any it v lx C (fun b hb a hab => (hc b hb a hab).imp id (lk a).1) (it.ord [289] C) ∅ _
      (fun b hb => (it.mem _ _ _).1 hb) (by simp) inv0).1
    exact ⟨⟨fun _ => hc, fun _ => r⟩, fun hn => absurd r hn⟩
  · have hc' := hc
    push Not at hc'
    obtain ⟨b, hb, a, hab, haC, hal⟩ := hc'
    have hn : h.lsucc a = none := by
      have : ¬ (h.lsucc a).isSome := fun hh => hal ((lk a).2 hh)
      simpa using this
    have r : (causetLink it C h).1 = .error .attributeError :=
      linkCompute_err it a b (it.ord [289] C) (linkClear (it.ord [286] C) h) ((it.mem _ _ _).2 hb)
        (by rw [inv0.same.pastLinks]; exact (mem_pastLinks v a b).2 hab) (by rw [c2, if_neg (by rwa [it.mem]), hn])
    exact ⟨⟨fun hh => (nomatch r.symm.trans hh), fun hh => absurd hh hc⟩, fun _ => r⟩

/-- **C38, any set: result.** When `link()` of any set succeeds, the past links of every event of the set are right, the future
links are those to events of the set, other memory is untouched; so all link memory is exact iff the set contains every event linked above one of
its events. -/
theorem C38_any (it : Iter) (v : h.Valid) (lx : h.LinksExact) (C : Finset EId) (hok : (causetLink it C h).1 = .ok ()) :
    let h' := (causetLink it C h).2
    h.SameOrder h' ∧
    (∀ e ∈ C, ∃ p s, h'.lprec e = some p ∧ h'.lsucc e = some s ∧
      (∀ x, x ∈ p ↔ Covers h.Lt x e) ∧ (∀ x, x ∈ s ↔ Covers h.Lt e x ∧ x ∈ C)) ∧
    (∀ e, e ∉ C → h'.lprec e = h.lprec e ∧ h'.lsucc e = h.lsucc e) ∧
    (h'.LinksExact ↔ ∀ e ∈ C, ∀ x, Covers h.Lt e x → x ∈ C) := by
  intro h'
  obtain ⟨c1, c2⟩ := linkClear_fields (it.ord [286] C) h
  have inv0 : LinkInv h C ∅ (linkClear (it.ord [286] C) h) := by
    refine ⟨linkClear_sameOrder _ _, fun x => ?_, fun x => ?_⟩
    · rw [c1]; simp
    · rw [c2]; simp [it.mem]
  have lk : ∀ a, h.hasBeenLinked a = true → (h.lsucc a).isSome := by
    intro a ha
    simp only [hasBeenLinked, Bool.and_eq_true] at ha
    exact ha.2
  have hc := (C38_outcome it v lx C).1.1 hok
  obtain ⟨-, r2⟩ := linkCompute_any it v lx C (fun b hb a hab => (hc b hb a hab).imp id (lk a)) (it.ord [289] C) ∅ _
      (fun b hb => (it.mem _ _ _).1 hb) (by simp) inv0
  have hC' : ∅ ∪ (it.ord [289] C).toFinset = C := by ext x; simp [it.mem]
  rw [hC'] at r2
  have r2 : LinkInv h C C h' := r2
  have mem : ∀ e ∈ C, ∃ p s, h'.lprec e = some p ∧ h'.lsucc e = some s ∧
      (∀ x, x ∈ p ↔ Covers h.Lt x e) ∧ (∀ x, x ∈ s ↔ Covers h.Lt e x ∧ x ∈ C) := fun e he =>
    ⟨h.pastLinks e, h.futureLinks e ∩ C, by rw [r2.lprec, if_pos he], by rw [r2.lsucc, if_pos he],
      fun x => mem_pastLinks v x e, fun x => by rw [Finset.mem_inter, mem_futureLinks v x e]⟩
  have out : ∀ e, e ∉ C → h'.lprec e = h.lprec e ∧ h'.lsucc e = h.lsucc e := fun e he => by
    rw [r2.lprec, r2.lsucc, if_neg he, if_neg he]; exact ⟨rfl, rfl⟩
  refine ⟨r2.same, mem, out, ?_⟩
  constructor
  · intro lx' e he x hx
    obtain ⟨p, s, h1, h2, h3, h4⟩ := mem e he
    have := (lx'.future e s h2 x).2 (by rw [r2.same.Lt]; exact hx)
    exact ((h4 x).1 this).2
  · intro hcl
    refine ⟨fun x s hx y => ?_, fun x s hx y => ?_, fun x => ?_⟩ <;> by_cases hxC : x ∈ C
    · obtain ⟨p, t, h3, h4, h5, h6⟩ := mem x hxC
      rw [h3] at hx; cases hx; rw [r2.same.Lt]; exact h5 y
    · rw [(out x hxC).1] at hx; rw [r2.same.Lt]; exact lx.past x s hx y
    · obtain ⟨p, t, h3, h4, h5, h6⟩ := mem x hxC
      rw [h4] at hx; cases hx; rw [r2.same.Lt, h6]
      exact and_iff_left_of_imp fun hy => hcl x hxC y hy
    · rw [(out x hxC).2] at hx; rw [r2.same.Lt]; exact lx.future x s hx y
    · obtain ⟨p, t, h3, h4, -⟩ := mem x hxC
      simp [h3, h4]
    · rw [(out x hxC).1, (out x hxC).2]; exact lx.both x

/-- in the chain 0 < 1 < 2 with link memory at 0: linking the set {1, 2}, which is not closed, succeeds and is right; linking {1} succeeds and is wrong -/
example : ∃ h, LinkReachable h ∧ (causetLink Iter.asc {1, 2} h).1 = .ok () ∧ (causetLink Iter.asc {1, 2} h).2.LinksExact ∧
    (causetLink Iter.asc {1} h).1 = .ok () ∧ ¬ (causetLink Iter.asc {1} h).2.LinksExact := by
  have hr : LinkReachable (exChain3.link 0) := .link _ _ exChain3_reach
  have v := hr.valid
  have o1 : (causetLink Iter.asc {1, 2} (exChain3.link 0)).1 = .ok () := by decide
  have o2 : (causetLink Iter.asc {1} (exChain3.link 0)).1 = .ok () := by decide
  refine ⟨_, hr, o1, (C38_any _ v hr.linksExact _ o1).2.2.2.2 ?_, o2, fun hh => ?_⟩
  · intro e he x hx
    have hx3 : x < 3 := (v.exists_of_lt _ _ hx.1).2
    have h0 : x ≠ 0 := by
      rintro rfl
      have := hx.1
      clear hx hr v o1 o2
      simp only [Finset.mem_insert, Finset.mem_singleton] at he
      rcases he with rfl | rfl <;> revert this <;> decide
    simp only [Finset.mem_insert, Finset.mem_singleton]
    omega
  · have := (C38_any _ v hr.linksExact _ o2).2.2.2.1 hh 1 (by simp) 2 (by rw [← mem_pastLinks v]; decide)
    simp at this

end Causets
