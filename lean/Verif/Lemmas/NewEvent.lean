import Verif.Lemmas.Order

/-! # Creating an event keeps the state consistent -/

namespace Causets

open Function (update)

namespace Heap

variable {h : Heap}

theorem mem_downs (v : h.Valid) (P : List EId) (a : EId) :
    a ∈ P.foldl (fun acc x => acc ∪ h.presentOrPast x) ∅ ↔ ∃ p ∈ P, a = p ∨ h.Lt a p := by
  rw [foldl_union_mem]
  simp only [Finset.notMem_empty, false_or, presentOrPast, Finset.mem_union,
    Finset.mem_singleton, v.mem_prec]
  constructor <;> rintro ⟨p, hp, h1⟩ <;> exact ⟨p, hp, h1.symm⟩

theorem mem_ups (v : h.Valid) (F : List EId) (b : EId) :
    b ∈ F.foldl (fun acc x => acc ∪ h.presentOrFuture x) ∅ ↔ ∃ f ∈ F, b = f ∨ h.Lt f b := by
  rw [foldl_union_mem]
  simp only [Finset.notMem_empty, false_or, presentOrFuture, Finset.mem_union,
    Finset.mem_singleton, v.mem_succ]
  constructor <;> rintro ⟨p, hp, h1⟩ <;> exact ⟨p, hp, h1.symm⟩

/-- futures after the constructor -/
theorem newEvent_mem_succ (it : Iter) (h : Heap) (v : h.Valid) (l : Option Label) (P F : List EId)
    (hP : ∀ p ∈ P, h.Exists p) (hF : ∀ f ∈ F, h.Exists f) (a b : EId) :
    b ∈ (h.newEvent it l P F).2.succ a ↔
      h.Lt a b ∨ (b = h.next ∧ ∃ p ∈ P, a = p ∨ h.Lt a p) ∨
        (a = h.next ∧ ∃ f ∈ F, b = f ∨ h.Lt f b) := by
  obtain ⟨-, -, -, -, hs, -, -⟩ := newEvent_fields it h v l P F hP hF
  rw [hs a]
  have hna : ∀ c, ¬ h.Lt h.next c := fun c hh => absurd (v.exists_of_lt _ _ hh).1 (lt_irrefl _)
  by_cases ha : a = h.next
  · subst ha
    simp only [if_true, mem_ups v, hna, true_and, false_or]
    constructor
    · exact Or.inr
    · rintro (⟨-, p, hp, h1 | h1⟩ | h1)
      · exact absurd (hP p hp) (by rw [← h1]; exact lt_irrefl _)
      · exact absurd h1 (by simp)
      · exact h1
  · simp only [ha, if_false, mem_downs v, false_and, or_false]
    split_ifs with hu
    · simp only [Finset.mem_insert, v.mem_succ]
      constructor
      · rintro (h1 | h1)
        · exact Or.inr ⟨h1, hu⟩
        · exact Or.inl h1
      · rintro (h1 | h1)
        · exact Or.inr h1
        · exact Or.inl h1.1
    · simp only [v.mem_succ]
      constructor
      · exact Or.inl
      · rintro (h1 | h1)
        · exact h1
        · exact absurd h1.2 hu

theorem newEvent_fst (it : Iter) (h : Heap) (l : Option Label) (P F : List EId) :
    (h.newEvent it l P F).1 = h.next := rfl

theorem newEvent_valid (it : Iter) (h : Heap) (v : h.Valid) (l : Option Label) (P F : List EId)
    (hP : ∀ p ∈ P, h.Exists p) (hF : ∀ f ∈ F, h.Exists f)
    (hs : ∀ p ∈ P, ∀ f ∈ F, h.Lt p f) : (h.newEvent it l P F).2.Valid := by
  have hlt := newEvent_lt it h v l P F hP hF
  have hsu := newEvent_mem_succ it h v l P F hP hF
  obtain ⟨-, hn, -, -, -, -, -⟩ := newEvent_fields it h v l P F hP hF
  have hnb : ∀ c, ¬ h.Lt c h.next := fun c hh => absurd (v.exists_of_lt _ _ hh).2 (lt_irrefl _)
  have hna : ∀ c, ¬ h.Lt h.next c := fun c hh => absurd (v.exists_of_lt _ _ hh).1 (lt_irrefl _)
  have hPn : ∀ p ∈ P, p ≠ h.next := fun p hp => Nat.ne_of_lt (hP p hp)
  have hFn : ∀ p ∈ F, p ≠ h.next := fun p hp => Nat.ne_of_lt (hF p hp)
  apply Valid.mk'
  · intro a b
    rw [← lt_iff, hlt, hn]
    rintro (h1 | ⟨rfl, p, hp, rfl | h1⟩ | ⟨rfl, f, hf, rfl | h1⟩)
    · have := v.exists_of_lt _ _ h1; exact ⟨Nat.lt_succ_of_lt this.1, Nat.lt_succ_of_lt this.2⟩
    · exact ⟨Nat.lt_succ_of_lt (hP _ hp), Nat.lt_succ_self _⟩
    · exact ⟨Nat.lt_succ_of_lt (v.exists_of_lt _ _ h1).1, Nat.lt_succ_self _⟩
    · exact ⟨Nat.lt_succ_self _, Nat.lt_succ_of_lt (hF _ hf)⟩
    · exact ⟨Nat.lt_succ_self _, Nat.lt_succ_of_lt (v.exists_of_lt _ _ h1).2⟩
  · intro a b
    rw [← lt_iff, hlt, hsu]
  · intro a
    rw [← lt_iff, hlt]
    rintro (h1 | ⟨rfl, p, hp, h1 | h1⟩ | ⟨rfl, f, hf, h1 | h1⟩)
    · exact v.irrefl a h1
    · exact hPn p hp h1.symm
    · exact hna _ h1
    · exact hFn f hf h1.symm
    · exact hnb _ h1
  · intro a b c
    rw [← lt_iff, ← lt_iff, ← lt_iff, hlt, hlt, hlt]
    rintro (h1 | ⟨rfl, p, hp, h1⟩ | ⟨rfl, f, hf, h1⟩) (h2 | ⟨rfl, q, hq, h2⟩ | ⟨h2e, g, hg, h2⟩)
    · exact Or.inl (v.trans h1 h2)
    · right; left
      refine ⟨rfl, q, hq, Or.inr ?_⟩
      rcases h2 with rfl | h2
      · exact h1
      · exact v.trans h1 h2
    · subst h2e; exact absurd h1 (hnb _)
    · exact absurd h2 (hna _)
    · exfalso
      rcases h2 with h2 | h2
      · exact hPn _ hq h2.symm
      · exact hna _ h2
    · left
      have hpg := hs p hp g hg
      have hag : h.Lt a g := by rcases h1 with rfl | h1; exacts [hpg, v.trans h1 hpg]
      rcases h2 with rfl | h2
      exacts [hag, v.trans hag h2]
    · right; right
      refine ⟨rfl, f, hf, Or.inr ?_⟩
      rcases h1 with rfl | h1
      exacts [h2, v.trans h1 h2]
    · exfalso
      have hqf := hs q hq f hf
      have h3 : h.Lt b f := by
        rcases h2 with rfl | h2
        exacts [hqf, v.trans h2 hqf]
      rcases h1 with rfl | h1
      · exact v.irrefl _ h3
      · exact v.asymm h1 h3
    · subst h2e
      rcases h1 with h1 | h1
      · exact absurd h1.symm (hFn _ hf)
      · exact absurd h1 (hnb _)

theorem newEvent_linksExact (it : Iter) (h : Heap) (v : h.Valid) (lx : h.LinksExact)
    (l : Option Label) (P F : List EId)
    (hP : ∀ p ∈ P, h.Exists p) (hF : ∀ f ∈ F, h.Exists f)
    (hs : ∀ p ∈ P, ∀ f ∈ F, h.Lt p f) : (h.newEvent it l P F).2.LinksExact := by
  have hlt := newEvent_lt it h v l P F hP hF
  have hfields := newEvent_fields it h v l P F hP hF
  dsimp only at hfields
  obtain ⟨-, -, -, -, -, hlp, hls⟩ := hfields
  simp only [mem_ups v] at hlp
  simp only [mem_downs v] at hls
  set g := (h.newEvent it l P F).2 with gdef
  have hnb : ∀ c, ¬ h.Lt c h.next := fun c hh => absurd (v.exists_of_lt _ _ hh).2 (lt_irrefl _)
  have hna : ∀ c, ¬ h.Lt h.next c := fun c hh => absurd (v.exists_of_lt _ _ hh).1 (lt_irrefl _)
  set Dn : EId → Prop := fun a => ∃ p ∈ P, a = p ∨ h.Lt a p with Dn_def
  set Up : EId → Prop := fun b => ∃ f ∈ F, b = f ∨ h.Lt f b with Up_def
  have hlt' : ∀ a b, g.Lt a b ↔ h.Lt a b ∨ (b = h.next ∧ Dn a) ∨ (a = h.next ∧ Up b) := hlt
  have nDn : ¬ Dn h.next := by
    rintro ⟨p, hp, h1 | h1⟩
    · exact Nat.ne_of_lt (hP p hp) h1.symm
    · exact hna _ h1
  have nUp : ¬ Up h.next := by
    rintro ⟨p, hp, h1 | h1⟩
    · exact Nat.ne_of_lt (hF p hp) h1.symm
    · exact hnb _ h1
  have DU : ∀ a b, Dn a → Up b → h.Lt a b := by
    rintro a b ⟨p, hp, h1⟩ ⟨f, hf, h2⟩
    have hpf := hs p hp f hf
    have h3 : h.Lt a f := by rcases h1 with rfl | h1; exacts [hpf, v.trans h1 hpf]
    rcases h2 with rfl | h2
    exacts [h3, v.trans h3 h2]
  -- covering relation between old events
  have cov : ∀ a b, a ≠ h.next → b ≠ h.next →
      (Covers g.Lt a b ↔ Covers h.Lt a b ∧ ¬ (Dn a ∧ Up b)) := by
    intro a b ha hb
    have hab : g.Lt a b ↔ h.Lt a b := by rw [hlt']; simp [ha, hb]
    constructor
    · rintro ⟨h1, h2⟩
      refine ⟨⟨hab.1 h1, fun c hc => h2 c ⟨(hlt' _ _).2 (Or.inl hc.1), (hlt' _ _).2 (Or.inl hc.2)⟩⟩,
        fun hd => ?_⟩
      exact h2 h.next ⟨(hlt' _ _).2 (Or.inr (Or.inl ⟨rfl, hd.1⟩)),
        (hlt' _ _).2 (Or.inr (Or.inr ⟨rfl, hd.2⟩))⟩
    · rintro ⟨⟨h1, h2⟩, h3⟩
      refine ⟨hab.2 h1, fun c hc => ?_⟩
      rw [hlt', hlt'] at hc
      rcases hc with ⟨h4 | ⟨rfl, h4⟩ | ⟨h6, h4⟩, h5 | ⟨h7, h5⟩ | ⟨h7, h5⟩⟩
      · exact h2 c ⟨h4, h5⟩
      · exact hb h7
      · subst h7; exact hnb _ h4
      · exact hna _ h5
      · exact hb h7
      · exact h3 ⟨h4, h5⟩
      all_goals exact ha h6
  have covT : ∀ a, a ≠ h.next → (Covers g.Lt a h.next ↔ Dn a ∧ ∀ c, ¬ (h.Lt a c ∧ Dn c)) := by
    intro a ha
    simp only [Covers, hlt', hnb, ha, true_and, false_and, false_or, or_false]
    constructor
    · rintro ⟨h1, h2⟩
      exact ⟨h1, fun c hc => h2 c ⟨Or.inl hc.1, Or.inl hc.2⟩⟩
    · rintro ⟨h1, h2⟩
      refine ⟨h1, fun c hc => ?_⟩
      rcases hc with ⟨h4 | ⟨rfl, h4⟩, h5 | ⟨h6, h5⟩⟩
      · exact h2 c ⟨h4, h5⟩
      · exact nUp h5
      · exact nDn h5
      · exact nUp h5
  have covF : ∀ a, a ≠ h.next → (Covers g.Lt h.next a ↔ Up a ∧ ∀ c, ¬ (Up c ∧ h.Lt c a)) := by
    intro a ha
    simp only [Covers, hlt', hna, ha, true_and, false_and, false_or]
    constructor
    · rintro ⟨h1, h2⟩
      exact ⟨h1, fun c hc => h2 c ⟨Or.inr hc.1, Or.inl hc.2⟩⟩
    · rintro ⟨h1, h2⟩
      refine ⟨h1, fun c hc => ?_⟩
      rcases hc with ⟨⟨rfl, h4⟩ | h4, h5 | ⟨h6, h5⟩⟩
      · exact nDn h4
      · exact nDn h4
      · exact h2 c ⟨h4, h5⟩
      · subst h6; exact nUp h4
  constructor
  · -- past link memory
    intro e s hes x
    by_cases he : e = h.next
    · subst he; rw [hlp.1] at hes; simp at hes
    by_cases hc : Up e ∧ h.hasBeenLinked e = true ∧ ∀ c, ¬ (Up c ∧ h.Lt c e)
    · rw [(hlp.2 e he).1 hc] at hes
      rw [Option.map_eq_some_iff] at hes
      obtain ⟨s0, hs0, rfl⟩ := hes
      rw [Finset.mem_insert, Finset.mem_sdiff, mem_downs v, lx.past e s0 hs0]
      by_cases hx : x = h.next
      · subst hx; simp [covF e he, hc.1, hc.2.2]
      · rw [cov x e hx he]
        simp only [hx, false_or]
        constructor
        · rintro ⟨h1, h2⟩; exact ⟨h1, fun hh => h2 hh.1⟩
        · rintro ⟨h1, h2⟩; exact ⟨h1, fun hh => h2 ⟨hh, hc.1⟩⟩
    · rw [(hlp.2 e he).2 hc] at hes
      rw [lx.past e s hes]
      have hl : h.hasBeenLinked e = true := by
        have h2 : h.lsucc e ≠ none := by
          intro hh; rw [← lx.both, hes] at hh; simp at hh
        simp [hasBeenLinked, hes, Option.isSome_iff_ne_none, h2]
      by_cases hx : x = h.next
      · subst hx
        rw [covF e he]
        constructor
        · intro h1; exact absurd h1.1 (hna _)
        · rintro ⟨h1, h2⟩; exact absurd ⟨h1, hl, h2⟩ hc
      · rw [cov x e hx he]
        constructor
        · intro h1
          refine ⟨h1, fun hd => hc ⟨hd.2, hl, fun c hcc => ?_⟩⟩
          exact h1.2 c ⟨DU x c hd.1 hcc.1, hcc.2⟩
        · exact fun h1 => h1.1
  · intro e s hes x
    by_cases he : e = h.next
    · subst he; rw [hls.1] at hes; simp at hes
    by_cases hc : Dn e ∧ h.hasBeenLinked e = true ∧ ∀ c, ¬ (h.Lt e c ∧ Dn c)
    · rw [(hls.2 e he).1 hc] at hes
      rw [Option.map_eq_some_iff] at hes
      obtain ⟨s0, hs0, rfl⟩ := hes
      rw [Finset.mem_insert, Finset.mem_sdiff, mem_ups v, lx.future e s0 hs0]
      by_cases hx : x = h.next
      · subst hx; simp [covT e he, hc.1, hc.2.2]
      · rw [cov e x he hx]
        simp only [hx, false_or]
        constructor
        · rintro ⟨h1, h2⟩; exact ⟨h1, fun hh => h2 hh.2⟩
        · rintro ⟨h1, h2⟩; exact ⟨h1, fun hh => h2 ⟨hc.1, hh⟩⟩
    · rw [(hls.2 e he).2 hc] at hes
      rw [lx.future e s hes]
      have hl : h.hasBeenLinked e = true := by
        have h2 : h.lprec e ≠ none := by
          intro hh; rw [lx.both, hes] at hh; simp at hh
        simp [hasBeenLinked, hes, Option.isSome_iff_ne_none, h2]
      by_cases hx : x = h.next
      · subst hx
        rw [covT e he]
        constructor
        · intro h1; exact absurd h1.1 (hnb _)
        · rintro ⟨h1, h2⟩; exact absurd ⟨h1, hl, h2⟩ hc
      · rw [cov e x he hx]
        constructor
        · intro h1
          refine ⟨h1, fun hd => hc ⟨hd.1, hl, fun c hcc => ?_⟩⟩
          exact h1.2 c ⟨hcc.1, DU c x hcc.2 hd.2⟩
        · exact fun h1 => h1.1
  · intro e
    by_cases he : e = h.next
    · subst he; rw [hlp.1, hls.1]
    · have h1 := lx.both e
      have h2 : g.lprec e = none ↔ h.lprec e = none := by
        by_cases hc : Up e ∧ h.hasBeenLinked e = true ∧ ∀ c, ¬ (Up c ∧ h.Lt c e)
        · rw [(hlp.2 e he).1 hc]; simp
        · rw [(hlp.2 e he).2 hc]
      have h3 : g.lsucc e = none ↔ h.lsucc e = none := by
        by_cases hc : Dn e ∧ h.hasBeenLinked e = true ∧ ∀ c, ¬ (h.Lt e c ∧ Dn c)
        · rw [(hls.2 e he).1 hc]; simp
        · rw [(hls.2 e he).2 hc]
      rw [h2, h3, h1]

/-! ## Link and unlink keep the link memory exact -/

theorem link_linksExact (v : h.Valid) (lx : h.LinksExact) (e : EId) : (h.link e).LinksExact := by
  have so := link_sameOrder h e
  constructor
  · intro x s hx y
    rw [so.Lt]
    by_cases hxe : x = e
    · subst hxe
      simp only [link, Function.update_self, Option.some.injEq] at hx
      rw [← hx, mem_pastLinks v]
    · simp only [link, Function.update_of_ne hxe] at hx
      exact lx.past x s hx y
  · intro x s hx y
    rw [so.Lt]
    by_cases hxe : x = e
    · subst hxe
      simp only [link, Function.update_self, Option.some.injEq] at hx
      rw [← hx, mem_futureLinks v]
    · simp only [link, Function.update_of_ne hxe] at hx
      exact lx.future x s hx y
  · intro x
    by_cases hxe : x = e
    · subst hxe; simp [link]
    · simp [link, hxe, lx.both x]

theorem unlink_linksExact (lx : h.LinksExact) (e : EId) : (h.unlink e).2.LinksExact := by
  unfold unlink
  cases h1 : h.lprec e with
  | none => exact lx
  | some s =>
    dsimp only
    cases h2 : h.lsucc e with
    | none => rw [← lx.both, h1] at h2; simp at h2
    | some t =>
      constructor
      · intro x s hx y
        by_cases hxe : x = e
        · subst hxe; simp at hx
        · simp only [Function.update_of_ne hxe] at hx
          exact lx.past x s hx y
      · intro x s hx y
        by_cases hxe : x = e
        · subst hxe; simp at hx
        · simp only [Function.update_of_ne hxe] at hx
          exact lx.future x s hx y
      · intro x
        by_cases hxe : x = e
        · subst hxe; simp
        · simp [hxe, lx.both x]

theorem empty_valid : Heap.empty.Valid := by
  apply Valid.mk' <;> simp [Heap.empty]

theorem empty_linksExact : Heap.empty.LinksExact := by
  constructor <;> simp [Heap.empty]

end Heap

end Causets
