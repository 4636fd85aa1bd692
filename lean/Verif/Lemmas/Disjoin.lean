import Verif.Lemmas.NewEvent

/-! # `disjoin` -/

namespace Causets

open Function (update)

namespace Heap

variable {h : Heap}

theorem discard_next (h : Heap) (x e : EId) : (h.discard x e).2.next = h.next := by
  unfold discard; dsimp only; split_ifs <;> rfl
theorem discard_label (h : Heap) (x e : EId) : (h.discard x e).2.label = h.label := by
  unfold discard; dsimp only; split_ifs <;> rfl
theorem discard_prec (h : Heap) (x e : EId) :
    (h.discard x e).2.prec = update h.prec x ((h.prec x).erase e) := by
  unfold discard; dsimp only
  split_ifs with h1 <;> first | rfl | (rw [Finset.erase_eq_of_notMem h1]; simp)
theorem discard_succ (h : Heap) (x e : EId) (hx : ¬ (e ∈ h.prec x ∧ e ∈ h.succ x)) :
    (h.discard x e).2.succ = update h.succ x ((h.succ x).erase e) := by
  unfold discard; dsimp only
  split_ifs with h1 h2 h3 h4 <;> first | rfl | skip
  · rw [Finset.erase_eq_of_notMem (fun hh => hx ⟨h1, hh⟩)]; simp
  · rw [Finset.erase_eq_of_notMem (fun hh => hx ⟨h1, hh⟩)]; simp
  · rw [Finset.erase_eq_of_notMem h3]; simp

theorem discard_other (h : Heap) (x e y : EId) (hy : y ≠ x) :
    (h.discard x e).2.prec y = h.prec y ∧ (h.discard x e).2.succ y = h.succ y ∧
    (h.discard x e).2.lprec y = h.lprec y ∧ (h.discard x e).2.lsucc y = h.lsucc y := by
  unfold discard; dsimp only
  split_ifs <;> simp [Function.update_of_ne hy]

theorem discard_none (h : Heap) (x e : EId) (h1 : e ∉ h.prec x) (h2 : e ∉ h.succ x) :
    (h.discard x e).2 = h := by
  simp [discard, h1, h2]

theorem foldl_discard_other (e y : EId) (L : List EId) (hy : y ∉ L) (h : Heap) :
    let g := L.foldl (fun g x => (g.discard x e).2) h
    g.prec y = h.prec y ∧ g.succ y = h.succ y ∧ g.lprec y = h.lprec y ∧ g.lsucc y = h.lsucc y := by
  induction L generalizing h with
  | nil => simp
  | cons x xs ih =>
    simp only [List.mem_cons, not_or] at hy
    have h1 := discard_other h x e y hy.1
    have h2 := ih hy.2 (h.discard x e).2
    simp only [List.foldl_cons]
    exact ⟨h2.1.trans h1.1, h2.2.1.trans h1.2.1, h2.2.2.1.trans h1.2.2.1, h2.2.2.2.trans h1.2.2.2⟩

theorem foldl_discard_none (e : EId) (L : List EId) (h : Heap)
    (hL : ∀ x ∈ L, e ∉ h.prec x ∧ e ∉ h.succ x) :
    L.foldl (fun g x => (g.discard x e).2) h = h := by
  induction L with
  | nil => rfl
  | cons x xs ih =>
    have := hL x (by simp)
    simp only [List.foldl_cons, discard_none h x e this.1 this.2]
    exact ih (fun y hy => hL y (by simp [hy]))

theorem foldl_discard_order (e : EId) (L : List EId) (hn : L.Nodup) (h : Heap)
    (hL : ∀ x, ¬ (e ∈ h.prec x ∧ e ∈ h.succ x)) :
    let g := L.foldl (fun g x => (g.discard x e).2) h
    g.next = h.next ∧ g.label = h.label ∧
    (∀ y, g.prec y = if y ∈ L then (h.prec y).erase e else h.prec y) ∧
    (∀ y, g.succ y = if y ∈ L then (h.succ y).erase e else h.succ y) := by
  induction L generalizing h with
  | nil => simp
  | cons x xs ih =>
    rw [List.nodup_cons] at hn
    have p1 := discard_prec h x e
    have s1 := discard_succ h x e (hL x)
    have hne : ∀ y ∈ xs, y ≠ x := fun y hy => by rintro rfl; exact hn.1 hy
    obtain ⟨a1, a2, a3, a4⟩ := ih hn.2 (h.discard x e).2 (fun y hy => by
      rw [p1, s1] at hy
      by_cases hyx : y = x
      · subst hyx; simp at hy
      · rw [Function.update_of_ne hyx, Function.update_of_ne hyx] at hy; exact hL y hy)
    refine ⟨a1.trans (discard_next ..), a2.trans (discard_label ..), fun y => ?_, fun y => ?_⟩
    · simp only [List.foldl_cons, a3 y, p1]
      by_cases hyx : y = x
      · subst hyx; simp
      · simp [hyx]
    · simp only [List.foldl_cons, a4 y, s1]
      by_cases hyx : y = x
      · subst hyx; simp
      · simp [hyx]

theorem unlink_ok (h : Heap) (e : EId) (hl : h.hasBeenLinked e = true) :
    h.unlink e = (.ok (), { h with lprec := update h.lprec e none
                                   lsucc := update h.lsucc e none }) := by
  simp only [hasBeenLinked, Bool.and_eq_true, Option.isSome_iff_exists] at hl
  obtain ⟨⟨s, hs⟩, t, ht⟩ := hl
  simp [unlink, hs, ht]

/-- the final state of `disjoin`: both loops and both assignments collected -/
theorem disjoin_eq (it : Iter) (h : Heap) (v : h.Valid) (e : EId) (hl : h.hasBeenLinked e = true) :
    (h.disjoin it e).1 = .ok () ∧ ∃ L : List EId, L.Nodup ∧
      (∀ x, x ∈ L ↔ x ∈ h.cone e) ∧
      (h.disjoin it e).2 =
        let g := L.foldl (fun g x => (g.discard x e).2)
          { h with lprec := update h.lprec e none
                   lsucc := update h.lsucc e none }
        { g with prec := update g.prec e ∅
                 succ := update g.succ e ∅ } := by
  unfold disjoin
  rw [unlink_ok h e hl]
  refine ⟨rfl, _, it.nodup [e, 0] (h.cone e), fun x => it.mem _ _ x, ?_⟩
  set h1 : Heap := { h with lprec := update h.lprec e none
                            lsucc := update h.lsucc e none } with h1def
  have hL : ∀ x, ¬ (e ∈ h1.prec x ∧ e ∈ h1.succ x) := by
    intro x hx
    simp only [h1def, v.mem_prec, v.mem_succ] at hx
    exact v.asymm hx.1 hx.2
  have hc : h1.cone e = h.cone e := rfl
  obtain ⟨-, -, a3, a4⟩ := foldl_discard_order e (it.ord [e, 0] (h1.cone e)) (it.nodup _ _) h1 hL
  dsimp only
  rw [hc] at a3 a4 ⊢
  set g := (it.ord [e, 0] (h.cone e)).foldl (fun g x => (g.discard x e).2) h1 with gdef
  rw [foldl_discard_none]
  intro x _
  have hx1 : e ∉ g.prec x := by
    rw [a3 x]
    split_ifs with hx
    · simp
    · rw [it.mem] at hx
      intro hh
      apply hx
      simp only [h1def, v.mem_prec] at hh
      exact v.mem_cone.2 (Or.inr (Or.inr hh))
  have hx2 : e ∉ g.succ x := by
    rw [a4 x]
    split_ifs with hx
    · simp
    · rw [it.mem] at hx
      intro hh
      apply hx
      simp only [h1def, v.mem_succ] at hh
      exact v.mem_cone.2 (Or.inl hh)
  refine ⟨?_, hx2⟩
  by_cases hxe : x = e
  · subst hxe; simp
  · simpa [hxe] using hx1

theorem disjoin_fields (it : Iter) (h : Heap) (v : h.Valid) (e : EId)
    (hl : h.hasBeenLinked e = true) :
    (h.disjoin it e).1 = .ok () ∧ (h.disjoin it e).2.next = h.next ∧
    (h.disjoin it e).2.label = h.label ∧
    (∀ a b, a ∈ (h.disjoin it e).2.prec b ↔ h.Lt a b ∧ a ≠ e ∧ b ≠ e) ∧
    (∀ a b, b ∈ (h.disjoin it e).2.succ a ↔ h.Lt a b ∧ a ≠ e ∧ b ≠ e) := by
  obtain ⟨ho, L, hn, hm, heq⟩ := disjoin_eq it h v e hl
  refine ⟨ho, ?_⟩
  rw [heq]
  have hL : ∀ x, ¬ (e ∈ h.prec x ∧ e ∈ h.succ x) := by
    intro x hx
    simp only [v.mem_prec, v.mem_succ] at hx
    exact v.asymm hx.1 hx.2
  obtain ⟨a1, a2, a3, a4⟩ := foldl_discard_order e L hn
    { h with lprec := update h.lprec e none
             lsucc := update h.lsucc e none } hL
  refine ⟨a1, a2, fun a b => ?_, fun a b => ?_⟩
  · dsimp only
    by_cases hb : b = e
    · subst hb; simp
    · rw [Function.update_of_ne hb, a3 b]
      split_ifs with hbL
      · simp [v.mem_prec, hb, and_comm]
      · simp only [v.mem_prec, hb, ne_eq, not_false_eq_true, and_true]
        constructor
        · refine fun h1 => ⟨h1, ?_⟩
          rintro rfl
          exact hbL ((hm b).2 (v.mem_cone.2 (Or.inr (Or.inr h1))))
        · exact fun h1 => h1.1
  · dsimp only
    by_cases hb : a = e
    · subst hb; simp
    · rw [Function.update_of_ne hb, a4 a]
      split_ifs with hbL
      · simp [v.mem_succ, hb, and_comm]
      · simp only [v.mem_succ, hb, ne_eq, not_false_eq_true, true_and]
        constructor
        · refine fun h1 => ⟨h1, ?_⟩
          rintro rfl
          exact hbL ((hm a).2 (v.mem_cone.2 (Or.inl h1)))
        · exact fun h1 => h1.1

theorem disjoin_valid (it : Iter) (h : Heap) (v : h.Valid) (e : EId)
    (hl : h.hasBeenLinked e = true) : (h.disjoin it e).2.Valid := by
  obtain ⟨-, hn, -, hp, hs⟩ := disjoin_fields it h v e hl
  apply Valid.mk'
  · intro a b; rw [hp, hn]; exact fun h1 => v.exists_of_lt _ _ h1.1
  · intro a b; rw [hp, hs]
  · intro a; rw [hp]; exact fun h1 => v.irrefl _ h1.1
  · intro a b c; rw [hp, hp, hp]
    exact fun h1 h2 => ⟨v.trans h1.1 h2.1, h1.2.1, h2.2.2⟩

/-- Whichever of `a`, `b` is visited first loses the new link `a`–`b` when the event `e` between them
is disjoined; the other one gains it. -/
theorem disjoin_links (it : Iter) (h : Heap) (v : h.Valid) (lx : h.LinksExact) (a e b : EId)
    (hle : h.hasBeenLinked e = true) (hla : h.hasBeenLinked a = true)
    (hlb : h.hasBeenLinked b = true) (hae : Covers h.Lt a e) (heb : Covers h.Lt e b) 
    (hbt : ∀ c, h.Lt a c → h.Lt c b → c = e) :
    ∃ s t, (h.disjoin it e).2.lsucc a = some s ∧ (h.disjoin it e).2.lprec b = some t ∧
      (b ∈ s ↔ a ∉ t) := by
  obtain ⟨-, L, hn, hm, heq⟩ := disjoin_eq it h v e hle
  rw [heq]
  set h1 : Heap := { h with lprec := update h.lprec e none
                            lsucc := update h.lsucc e none } with h1def
  have hne_ae := v.ne hae.1
  have hne_eb := v.ne heb.1
  have hab : h.Lt a b := v.trans hae.1 heb.1
  have hne_ab := v.ne hab
  simp only [hasBeenLinked, Bool.and_eq_true, Option.isSome_iff_exists] at hla hlb
  obtain ⟨⟨sa', hsa'⟩, sa, hsa⟩ := hla
  obtain ⟨⟨sb, hsb⟩, sb', hsb'⟩ := hlb
  have haL : a ∈ L := (hm a).2 (v.mem_cone.2 (Or.inl hae.1))
  have hbL : b ∈ L := (hm b).2 (v.mem_cone.2 (Or.inr (Or.inr heb.1)))
  have hsae : e ∈ sa := (lx.future a sa hsa e).2 hae
  have hsab : b ∉ sa := fun hh => ((lx.future a sa hsa b).1 hh).2 e ⟨hae.1, heb.1⟩
  have hsbe : e ∈ sb := (lx.past b sb hsb e).2 heb
  have hsba : a ∉ sb := fun hh => ((lx.past b sb hsb a).1 hh).2 e ⟨hae.1, heb.1⟩
  -- effect of visiting a, in a state where a's fields and e's future are still the original ones
  have stepA : ∀ g : Heap, g.prec a = h.prec a → g.succ a = h.succ a → g.lprec a = h.lprec a →
      g.lsucc a = h.lsucc a → g.succ e = h.succ e →
      ∃ s, (g.discard a e).2.lsucc a = some s ∧ (b ∈ s ↔ h.succ a ∩ g.prec b = ∅) := by
    intro g g1 g2 g3 g4 g5
    have c1 : e ∉ g.prec a := by rw [g1, v.mem_prec]; exact v.asymm hae.1
    have c2 : e ∈ g.succ a := by rw [g2, v.mem_succ]; exact hae.1
    have c3 : (g.hasBeenLinked a && decide (e ∈ (g.lsucc a).getD ∅)) = true := by
      simp [hasBeenLinked, g3, g4, hsa, hsa', hsae]
    refine ⟨(sa ∪ (g.succ e).filter (fun y => g.isLink a y)).erase e, ?_, ?_⟩
    · unfold discard; dsimp only
      rw [if_neg c1, if_pos c2, if_pos c3]
      simp [g4, hsa]
    · rw [Finset.mem_erase, Finset.mem_union, Finset.mem_filter, g5, v.mem_succ, isLink, g2]
      simp [hsab, heb.1, hne_eb.symm]
  have stepB : ∀ g : Heap, g.prec b = h.prec b → g.succ b = h.succ b → g.lprec b = h.lprec b →
      g.lsucc b = h.lsucc b → g.prec e = h.prec e →
      ∃ s, (g.discard b e).2.lprec b = some s ∧ (a ∈ s ↔ g.succ a ∩ h.prec b = ∅) := by
    intro g g1 g2 g3 g4 g5
    have c1 : e ∈ g.prec b := by rw [g1, v.mem_prec]; exact heb.1
    have c3 : (g.hasBeenLinked b && decide (e ∈ (g.lprec b).getD ∅)) = true := by
      simp [hasBeenLinked, g3, g4, hsb, hsb', hsbe]
    refine ⟨(sb ∪ (g.prec e).filter (fun y => g.isLink y b)).erase e, ?_, ?_⟩
    · unfold discard; dsimp only
      rw [if_pos c1, if_pos c3]
      simp [g3, hsb]
    · rw [Finset.mem_erase, Finset.mem_union, Finset.mem_filter, g5, v.mem_prec, isLink, g1]
      simp [hsba, hae.1, hne_ae]
  have old : h.succ a ∩ h.prec b ≠ ∅ := by
    rw [← Finset.nonempty_iff_ne_empty]
    exact ⟨e, by simp [v.mem_succ, v.mem_prec, hae.1, heb.1]⟩
  have new1 : h.succ a ∩ (h.prec b).erase e = ∅ := by
    rw [Finset.eq_empty_iff_forall_notMem]
    intro c
    simp only [Finset.mem_inter, Finset.mem_erase, v.mem_succ, v.mem_prec]
    rintro ⟨c1, c2, c3⟩
    exact c2 (hbt c c1 c3)
  have new2 : (h.succ a).erase e ∩ h.prec b = ∅ := by
    rw [Finset.eq_empty_iff_forall_notMem]
    intro c
    simp only [Finset.mem_inter, Finset.mem_erase, v.mem_succ, v.mem_prec]
    rintro ⟨⟨c2, c1⟩, c3⟩
    exact c2 (hbt c c1 c3)
  have f1 : h1.lsucc a = h.lsucc a := by simp [h1def, hne_ae]
  have f2 : h1.lprec a = h.lprec a := by simp [h1def, hne_ae]
  have f3 : h1.lsucc b = h.lsucc b := by simp [h1def, hne_eb.symm]
  have f4 : h1.lprec b = h.lprec b := by simp [h1def, hne_eb.symm]
  have hLe : ∀ x, ¬ (e ∈ h1.prec x ∧ e ∈ h1.succ x) := by
    intro x hx
    simp only [h1def, v.mem_prec, v.mem_succ] at hx
    exact v.asymm hx.1 hx.2
  have ee1 : e ∉ h.prec e := by rw [v.mem_prec]; exact v.irrefl e
  have ee2 : e ∉ h.succ e := by rw [v.mem_succ]; exact v.irrefl e
  -- the sets of e itself never change in the loop
  have keepE : ∀ M : List EId, M.Nodup →
      (M.foldl (fun g x => (g.discard x e).2) h1).prec e = h.prec e ∧
      (M.foldl (fun g x => (g.discard x e).2) h1).succ e = h.succ e := by
    intro M hM
    obtain ⟨-, -, m3, m4⟩ := foldl_discard_order e M hM h1 hLe
    rw [m3 e, m4 e]
    constructor
    · split_ifs
      · exact Finset.erase_eq_of_notMem ee1
      · rfl
    · split_ifs
      · exact Finset.erase_eq_of_notMem ee2
      · rfl
  dsimp only
  obtain ⟨L1, L2, rfl⟩ := List.append_of_mem haL
  have hn0 := hn
  rw [List.nodup_append] at hn
  obtain ⟨n1, n2, n3⟩ := hn
  rw [List.nodup_cons] at n2
  have haL1 : a ∉ L1 := fun hh => n3 a hh a (by simp) rfl
  have hkA := foldl_discard_other e a L1 haL1 h1
  set gA := L1.foldl (fun g x => (g.discard x e).2) h1 with gAdef
  obtain ⟨s, hs1, hs2⟩ := stepA gA hkA.1 hkA.2.1 (hkA.2.2.1.trans f2) (hkA.2.2.2.trans f1)
    (keepE L1 n1).2
  have hkA2 := foldl_discard_other e a L2 n2.1 (gA.discard a e).2
  have finalA : ((L1 ++ a :: L2).foldl (fun g x => (g.discard x e).2) h1).lsucc a = some s := by
    rw [List.foldl_append, List.foldl_cons, ← gAdef, hkA2.2.2.2, hs1]
  by_cases hbL1 : b ∈ L1
  · -- b first
    obtain ⟨K1, K2, rfl⟩ := List.append_of_mem hbL1
    have hn1 := n1
    rw [List.nodup_append] at n1
    obtain ⟨k1, k2, k3⟩ := n1
    rw [List.nodup_cons] at k2
    have hbK1 : b ∉ K1 := fun hh => k3 b hh b (by simp) rfl
    have hkB := foldl_discard_other e b K1 hbK1 h1
    set gB := K1.foldl (fun g x => (g.discard x e).2) h1 with gBdef
    obtain ⟨t, ht1, ht2⟩ := stepB gB hkB.1 hkB.2.1 (hkB.2.2.1.trans f4) (hkB.2.2.2.trans f3)
      (keepE K1 k1).1
    have haK1 : a ∉ K1 := fun hh => haL1 (by simp [hh])
    have hkAB := foldl_discard_other e a K1 haK1 h1
    have hb2 : b ∉ K2 ++ a :: L2 := by
      intro hh
      rcases List.mem_append.1 hh with hh | hh
      · exact k2.1 hh
      · exact n3 b (by simp) b hh rfl
    have hkB2 := foldl_discard_other e b (K2 ++ a :: L2) hb2 (gB.discard b e).2
    have finalB : (((K1 ++ b :: K2) ++ a :: L2).foldl (fun g x => (g.discard x e).2) h1).lprec b
        = some t := by
      rw [List.append_assoc, List.cons_append, List.foldl_append, List.foldl_cons, ← gBdef,
        hkB2.2.2.1, ht1]
    refine ⟨s, t, finalA, finalB, ?_⟩
    rw [hs2, ht2]
    obtain ⟨-, -, q3, -⟩ := foldl_discard_order e (K1 ++ b :: K2) hn1 h1 hLe
    rw [gAdef, q3 b, if_pos (by simp), hkAB.2.1]
    simp only [h1def]
    simp [new1, old]
  · -- a first
    have hbL2 : b ∈ L2 := by
      rcases List.mem_append.1 hbL with hh | hh
      · exact absurd hh hbL1
      · rcases List.mem_cons.1 hh with hh | hh
        · exact absurd hh hne_ab.symm
        · exact hh
    obtain ⟨K1, K2, rfl⟩ := List.append_of_mem hbL2
    have hn2 := n2.2
    rw [List.nodup_append] at hn2
    obtain ⟨k1, k2, k3⟩ := hn2
    rw [List.nodup_cons] at k2
    have hbK1 : b ∉ K1 := fun hh => k3 b hh b (by simp) rfl
    have hbpre : b ∉ L1 ++ a :: K1 := by
      intro hh
      rcases List.mem_append.1 hh with hh | hh
      · exact hbL1 hh
      · rcases List.mem_cons.1 hh with hh | hh
        · exact hne_ab hh.symm
        · exact hbK1 hh
    have hnpre : (L1 ++ a :: K1).Nodup := by
      have : (L1 ++ a :: K1 ++ b :: K2).Nodup := by simpa using hn0
      exact (List.nodup_append.1 this).1
    have hkB := foldl_discard_other e b (L1 ++ a :: K1) hbpre h1
    obtain ⟨-, -, -, q4⟩ := foldl_discard_order e (L1 ++ a :: K1) hnpre h1 hLe
    have kE := (keepE (L1 ++ a :: K1) hnpre).1
    set gB := (L1 ++ a :: K1).foldl (fun g x => (g.discard x e).2) h1 with gBdef
    obtain ⟨t, ht1, ht2⟩ := stepB gB hkB.1 hkB.2.1 (hkB.2.2.1.trans f4) (hkB.2.2.2.trans f3) kE
    have hkB2 := foldl_discard_other e b K2 k2.1 (gB.discard b e).2
    have finalB : ((L1 ++ a :: (K1 ++ b :: K2)).foldl (fun g x => (g.discard x e).2) h1).lprec b
        = some t := by
      have : L1 ++ a :: (K1 ++ b :: K2) = (L1 ++ a :: K1) ++ b :: K2 := by simp
      rw [this, List.foldl_append, List.foldl_cons, ← gBdef, hkB2.2.2.1, ht1]
    refine ⟨s, t, finalA, finalB, ?_⟩
    have hkBA := foldl_discard_other e b L1 hbL1 h1
    rw [hs2, ht2, q4 a, if_pos (by simp), gAdef, hkBA.1]
    simp only [h1def]
    simp [new2, old]

/-- the link memory after the loop of `disjoin`, if no new link can arise -/
theorem foldl_discard_links (h : Heap) (v : h.Valid) (lx : h.LinksExact) (e : EId)
    (hh : ∀ a b, Covers h.Lt a e → Covers h.Lt e b → ∃ c, c ≠ e ∧ h.Lt a c ∧ h.Lt c b)
    (L : List EId) (hn : L.Nodup) :
    let h1 : Heap := { h with lprec := update h.lprec e none
                              lsucc := update h.lsucc e none }
    let g := L.foldl (fun g x => (g.discard x e).2) h1
    (∀ y, g.lprec y = if y ∈ L then (h1.lprec y).map (fun s => s.erase e) else h1.lprec y) ∧
    (∀ y, g.lsucc y = if y ∈ L then (h1.lsucc y).map (fun s => s.erase e) else h1.lsucc y) := by
  intro h1
  have hL : ∀ x, ¬ (e ∈ h1.prec x ∧ e ∈ h1.succ x) := by
    intro x hx
    simp only [h1, v.mem_prec, v.mem_succ] at hx
    exact v.asymm hx.1 hx.2
  have between : ∀ a b, h.Lt a e → h.Lt e b → ∃ c, c ≠ e ∧ h.Lt a c ∧ h.Lt c b := by
    intro a b hae heb
    by_cases ha : Covers h.Lt a e
    · by_cases hb : Covers h.Lt e b
      · exact hh a b ha hb
      · simp only [Covers, heb, true_and, not_forall, not_not] at hb
        obtain ⟨c, c1, c2⟩ := hb
        exact ⟨c, (v.ne c1).symm, v.trans hae c1, c2⟩
    · simp only [Covers, hae, true_and, not_forall, not_not] at ha
      obtain ⟨c, c1, c2⟩ := ha
      exact ⟨c, v.ne c2, c1, v.trans c2 heb⟩
  induction L using List.reverseRecOn with
  | nil => simp
  | append_singleton M x ih =>
    rw [List.nodup_append] at hn
    obtain ⟨hM, -, hxM⟩ := hn
    have hxM : x ∉ M := fun hx => hxM x hx x (by simp) rfl
    obtain ⟨i1, i2⟩ := ih hM
    obtain ⟨-, -, o1, o2⟩ := foldl_discard_order e M hM h1 hL
    have hk := foldl_discard_other e x M hxM h1
    rw [List.foldl_append]
    simp only [List.foldl_cons, List.foldl_nil]
    set g := M.foldl (fun g x => (g.discard x e).2) h1 with gdef
    have nolink : ∀ a b, h.Lt a e → h.Lt e b → g.isLink a b = false := by
      intro a b hae heb
      obtain ⟨c, c1, c2, c3⟩ := between a b hae heb
      rw [isLink, decide_eq_false_iff_not, ← ne_eq, ← Finset.nonempty_iff_ne_empty]
      refine ⟨c, Finset.mem_inter.2 ⟨?_, ?_⟩⟩
      · rw [o2 a]; split_ifs <;> simp [h1, v.mem_succ, c1, c2]
      · rw [o1 b]; split_ifs <;> simp [h1, v.mem_prec, c1, c3]
    have eP : g.prec e = h.prec e := by
      rw [o1 e]
      split_ifs
      · exact Finset.erase_eq_of_notMem (by rw [v.mem_prec]; exact v.irrefl e)
      · rfl
    have eS : g.succ e = h.succ e := by
      rw [o2 e]
      split_ifs
      · exact Finset.erase_eq_of_notMem (by rw [v.mem_succ]; exact v.irrefl e)
      · rfl
    have other := fun y (hy : y ≠ x) => discard_other g x e y hy
    have atx : (g.discard x e).2.lprec x = (h1.lprec x).map (fun s => s.erase e) ∧
        (g.discard x e).2.lsucc x = (h1.lsucc x).map (fun s => s.erase e) := by
      by_cases hxe : x = e
      · subst hxe
        have c1 : x ∉ g.prec x := by rw [eP, v.mem_prec]; exact v.irrefl x
        have c2 : x ∉ g.succ x := by rw [eS, v.mem_succ]; exact v.irrefl x
        rw [discard_none g x x c1 c2, hk.2.2.1, hk.2.2.2]
        simp [h1]
      · have l1 : h1.lprec x = h.lprec x := by simp [h1, hxe]
        have l2 : h1.lsucc x = h.lsucc x := by simp [h1, hxe]
        have p0 : g.lprec x = h.lprec x := hk.2.2.1.trans l1
        have s0 : g.lsucc x = h.lsucc x := hk.2.2.2.trans l2
        have pp : g.prec x = h.prec x := hk.1
        have ss : g.succ x = h.succ x := hk.2.1
        rw [l1, l2]
        rcases h3 : h.lprec x with _ | s
        · have h4 := (lx.both x).1 h3
          have nl : g.hasBeenLinked x = false := by simp [hasBeenLinked, p0, h3]
          unfold discard; dsimp only
          split_ifs <;> simp_all
        · have h4 : h.lsucc x ≠ none := fun h5 => by
            have := (lx.both x).2 h5
            rw [h3] at this; cases this
          obtain ⟨t, ht⟩ := Option.ne_none_iff_exists'.1 h4
          have nl : g.hasBeenLinked x = true := by simp [hasBeenLinked, p0, s0, h3, ht]
          have ms := lx.past x s h3
          have mt := lx.future x t ht
          rw [ht]
          unfold discard; dsimp only
          by_cases c1 : e ∈ g.prec x
          · rw [if_pos c1]
            have hlt : h.Lt e x := by rwa [pp, v.mem_prec] at c1
            have et : t.erase e = t := Finset.erase_eq_of_notMem fun hh' =>
              v.asymm hlt ((mt e).1 hh').1
            have ef : ((g.prec e).filter (fun y => g.isLink y x)) = ∅ := by
              rw [Finset.filter_eq_empty_iff]
              intro y hy
              rw [eP, v.mem_prec] at hy
              rw [nolink y x hy hlt]; simp
            by_cases c2 : e ∈ s
            · simp [nl, p0, s0, h3, ht, c2, ef, et]
            · simp [nl, p0, s0, h3, ht, c2, et]
          · rw [if_neg c1]
            have es : s.erase e = s := Finset.erase_eq_of_notMem fun hh' => c1 (by
              rw [pp, v.mem_prec]; exact ((ms e).1 hh').1)
            by_cases c3 : e ∈ g.succ x
            · rw [if_pos c3]
              have hlt : h.Lt x e := by rwa [ss, v.mem_succ] at c3
              have ef : ((g.succ e).filter (fun y => g.isLink x y)) = ∅ := by
                rw [Finset.filter_eq_empty_iff]
                intro y hy
                rw [eS, v.mem_succ] at hy
                rw [nolink x y hlt hy]; simp
              by_cases c2 : e ∈ t
              · simp [nl, p0, s0, h3, ht, c2, ef, es]
              · simp [nl, p0, s0, h3, ht, c2, es]
            · rw [if_neg c3]
              have et : t.erase e = t := Finset.erase_eq_of_notMem fun hh' => c3 (by
                rw [ss, v.mem_succ]; exact ((mt e).1 hh').1)
              simp [p0, s0, h3, ht, es, et]
    refine ⟨fun y => ?_, fun y => ?_⟩
    · by_cases hy : y = x
      · subst hy; rw [atx.1]; simp
      · rw [(other y hy).2.2.1, i1 y]; simp [hy]
    · by_cases hy : y = x
      · subst hy; rw [atx.2]; simp
      · rw [(other y hy).2.2.2, i2 y]; simp [hy]

theorem disjoin_covers (it : Iter) (h : Heap) (v : h.Valid) (e : EId)
    (hl : h.hasBeenLinked e = true)
    (hh : ∀ a b, Covers h.Lt a e → Covers h.Lt e b → ∃ c, c ≠ e ∧ h.Lt a c ∧ h.Lt c b) (x y : EId) :
    Covers (h.disjoin it e).2.Lt x y ↔ Covers h.Lt x y ∧ x ≠ e ∧ y ≠ e := by
  obtain ⟨-, -, -, h4, -⟩ := disjoin_fields it h v e hl
  have hlt : ∀ x y, (h.disjoin it e).2.Lt x y ↔ h.Lt x y ∧ x ≠ e ∧ y ≠ e :=
    fun x y => by rw [lt_iff, h4]
  simp only [Covers, hlt]
  constructor
  · rintro ⟨⟨a1, a2, a3⟩, a4⟩
    refine ⟨⟨a1, fun c hc => ?_⟩, a2, a3⟩
    have key : ∀ c, c ≠ e → h.Lt x c → h.Lt c y → False := fun c c1 c2 c3 =>
      a4 c ⟨⟨c2, a2, c1⟩, c3, c1, a3⟩
    by_cases hce : c = e
    · subst hce
      by_cases hx : Covers h.Lt x c
      · by_cases hy : Covers h.Lt c y
        · obtain ⟨d, d1, d2, d3⟩ := hh x y hx hy
          exact key d d1 d2 d3
        · simp only [Covers, hc.2, true_and, not_forall, not_not] at hy
          obtain ⟨d, d1, d2⟩ := hy
          exact key d (v.ne d1).symm (v.trans hc.1 d1) d2
      · simp only [Covers, hc.1, true_and, not_forall, not_not] at hx
        obtain ⟨d, d1, d2⟩ := hx
        exact key d (v.ne d2) d1 (v.trans d2 hc.2)
    · exact key c hce hc.1 hc.2
  · rintro ⟨⟨a1, a4⟩, a2, a3⟩
    exact ⟨⟨a1, a2, a3⟩, fun c hc => a4 c ⟨hc.1.1, hc.2.1⟩⟩

/-- `disjoin` keeps the link memory exact if it creates no new link. -/
theorem disjoin_linksExact (it : Iter) (h : Heap) (v : h.Valid) (lx : h.LinksExact) (e : EId)
    (hl : h.hasBeenLinked e = true)
    (hh : ∀ a b, Covers h.Lt a e → Covers h.Lt e b → ∃ c, c ≠ e ∧ h.Lt a c ∧ h.Lt c b) :
    (h.disjoin it e).2.LinksExact := by
  have hcov := disjoin_covers it h v e hl hh
  obtain ⟨-, L, hn, hm, heq⟩ := disjoin_eq it h v e hl
  obtain ⟨k1, k2⟩ := foldl_discard_links h v lx e hh L hn
  have p : ∀ y, (h.disjoin it e).2.lprec y =
      if y = e then none else (h.lprec y).map (fun s => s.erase e) := by
    intro y
    rw [heq]; dsimp only
    rw [k1 y]
    by_cases hy : y = e
    · simp [hy]
    · simp only [hy, if_false, Function.update_of_ne (h := hy)]
      split_ifs with hyL
      · rfl
      · rcases hs : h.lprec y with _ | s
        · rfl
        · have : e ∉ s := fun hes => hyL ((hm y).2 (v.mem_cone.2
            (Or.inr (Or.inr ((lx.past y s hs e).1 hes).1))))
          simp [Finset.erase_eq_of_notMem this]
  have q : ∀ y, (h.disjoin it e).2.lsucc y =
      if y = e then none else (h.lsucc y).map (fun s => s.erase e) := by
    intro y
    rw [heq]; dsimp only
    rw [k2 y]
    by_cases hy : y = e
    · simp [hy]
    · simp only [hy, if_false, Function.update_of_ne (h := hy)]
      split_ifs with hyL
      · rfl
      · rcases hs : h.lsucc y with _ | s
        · rfl
        · have : e ∉ s := fun hes => hyL ((hm y).2 (v.mem_cone.2
            (Or.inl ((lx.future y s hs e).1 hes).1)))
          simp [Finset.erase_eq_of_notMem this]
  constructor
  · intro y s hs x
    rw [p y] at hs
    by_cases hy : y = e
    · simp [hy] at hs
    · rw [if_neg hy, Option.map_eq_some_iff] at hs
      obtain ⟨s0, hs0, rfl⟩ := hs
      rw [hcov, Finset.mem_erase, lx.past y s0 hs0]
      tauto
  · intro y s hs x
    rw [q y] at hs
    by_cases hy : y = e
    · simp [hy] at hs
    · rw [if_neg hy, Option.map_eq_some_iff] at hs
      obtain ⟨s0, hs0, rfl⟩ := hs
      rw [hcov, Finset.mem_erase, lx.future y s0 hs0]
      tauto
  · intro y
    rw [p y, q y]
    by_cases hy : y = e
    · simp [hy]
    · simp [hy, lx.both y]

end Heap

end Causets
