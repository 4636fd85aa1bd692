import Verif.Props.Cones
import Verif.Lemmas.Merge

/-! # C17, C18: merging causets; C38: `Causet.link` and `LinkCount` -/

namespace Causets

open Heap
open Function (update)

variable {h : Heap}

/-! ## C17 -/

/-- **C17.** For causally closed disjoint `P` and `F`, `merge(P, F)` returns the union, and the new order is the old
one together with exactly the pairs (p, f). -/
theorem C17_merge (it : Iter) (v : h.Valid) (P F : Finset EId)
    (eP : ∀ p ∈ P, h.Exists p) (eF : ∀ f ∈ F, h.Exists f)
    (hP : Closed h.Lt P) (hF : Closed h.Lt F) (hd : Disjoint P F) :
    ∃ h', merge it P F false h = (.ok (P ∪ F), h') ∧ h'.Valid ∧
      (∀ a b, h'.Lt a b ↔ h.Lt a b ∨ (a ∈ P ∧ b ∈ F)) ∧
      h'.next = h.next ∧ h'.label = h.label := by
  have v' := merge_valid it P F h v eP eF (fun p hp x hx => hP p hp x (Or.inr hx))
    (fun f hf x hx => hF f hf x (Or.inl hx)) hd
  obtain ⟨hn, hl, hp, hs⟩ := merge_fields it P F h
  have hlt : ∀ a b, (merge it P F false h).2.Lt a b ↔ h.Lt a b ∨ (a ∈ P ∧ b ∈ F) := by
    intro a b; rw [lt_iff, lt_iff]; exact hp a b
  refine ⟨_, Prod.ext ?_ rfl, v', hlt, hn, hl⟩
  show (merge it P F false h).2.causetInit it (P ∪ F) = .ok (P ∪ F)
  refine C09_causet_of_closed it v' _ ?_ ?_
  · intro e he
    unfold Heap.Exists
    rw [hn]
    rcases Finset.mem_union.1 he with he | he
    exacts [eP e he, eF e he]
  · intro a ha b hab
    rw [Finset.mem_union] at ha ⊢
    rcases hab with hab | hab <;> rw [hlt] at hab <;> rcases hab with hab | hab
    · exact ha.imp (fun h1 => hP a h1 b (Or.inl hab)) (fun h1 => hF a h1 b (Or.inl hab))
    · exact Or.inr hab.2
    · exact ha.imp (fun h1 => hP a h1 b (Or.inr hab)) (fun h1 => hF a h1 b (Or.inr hab))
    · exact Or.inl hab.1

/-- **C17, general sets.** For arbitrary sets the union is completed to a causally closed set, provided P contains the pasts of its events and F
the futures (otherwise the resulting relation need not be transitive). -/
theorem C17_merge_closure (it : Iter) (v : h.Valid) (P F : Finset EId)
    (eP : ∀ p ∈ P, h.Exists p) (eF : ∀ f ∈ F, h.Exists f)
    (hP : ∀ p ∈ P, ∀ x, h.Lt x p → x ∈ P) (hF : ∀ f ∈ F, ∀ x, h.Lt f x → x ∈ F) (hd : Disjoint P F) :
    ∃ C h', merge it P F false h = (.ok C, h') ∧ h'.Valid ∧
      (∀ a b, h'.Lt a b ↔ h.Lt a b ∨ (a ∈ P ∧ b ∈ F)) ∧
      P ∪ F ⊆ C ∧ Closed h'.Lt C ∧ ∀ D : Finset EId, P ∪ F ⊆ D → Closed h'.Lt D → C ⊆ D := by
  have v' := merge_valid it P F h v eP eF hP hF hd
  obtain ⟨hn, hl, hp, hs⟩ := merge_fields it P F h
  obtain ⟨C, h1, h2, h3, h4⟩ := C09_causet_closure it v' (P ∪ F) (fun e he => by
    unfold Heap.Exists
    rw [hn]
    rcases Finset.mem_union.1 he with he | he
    exacts [eP e he, eF e he])
  exact ⟨C, _, Prod.ext h1 rfl, v', fun a b => by rw [lt_iff, lt_iff]; exact hp a b, h2, h3, h4⟩

/-- **C17, `disjoint=True`.** No relation changes, the union is returned. -/
theorem C17_merge_disjoint (it : Iter) (v : h.Valid) (P F : Finset EId)
    (eP : ∀ p ∈ P, h.Exists p) (eF : ∀ f ∈ F, h.Exists f)
    (hP : Closed h.Lt P) (hF : Closed h.Lt F) :
    merge it P F true h = (.ok (P ∪ F), h) := by
  refine Prod.ext ?_ rfl
  show h.causetInit it (P ∪ F) = .ok (P ∪ F)
  refine C09_causet_of_closed it v _ ?_ ?_
  · intro e he
    rcases Finset.mem_union.1 he with he | he
    exacts [eP e he, eF e he]
  · intro a ha b hab
    rw [Finset.mem_union] at ha ⊢
    exact ha.imp (fun h1 => hP a h1 b hab) (fun h1 => hF a h1 b hab)

/-- 0 < 1 and a separate event 2 -/
def exChain2And1 : Heap :=
  let h1 := (Heap.empty.newEvent Iter.asc (some (.int 1)) [] []).2
  let h2 := (h1.newEvent Iter.asc (some (.int 2)) [0] []).2
  (h2.newEvent Iter.asc (some (.int 3)) [] []).2

theorem exChain2And1_reach : LinkReachable exChain2And1 := by
  refine .new _ _ _ _ _ (.new _ _ _ _ _ (.new _ _ _ _ _ .start ?_ ?_ ?_) ?_ ?_ ?_) ?_ ?_ ?_ <;>
    simp [Heap.Exists] <;> decide

theorem exChain2And1_lt (a b : EId) : exChain2And1.Lt a b ↔ a = 0 ∧ b = 1 := by
  constructor
  · intro hab
    have hE := exChain2And1_reach.reachable.valid.exists_of_lt _ _ hab
    have h1 : a < 3 := hE.1
    have h2 : b < 3 := hE.2
    revert hab
    have key : ∀ a < 3, ∀ b < 3, exChain2And1.Lt a b → a = 0 ∧ b = 1 := by decide
    exact key a h1 b h2
  · rintro ⟨rfl, rfl⟩; decide

theorem exChain2And1_closed : Closed exChain2And1.Lt {0, 1} ∧ Closed exChain2And1.Lt {2} := by
  constructor <;> intro a ha b hab <;> simp only [Related, exChain2And1_lt] at hab <;>
    simp only [Finset.mem_insert, Finset.mem_singleton] at ha ⊢ <;> omega

/-- the hypotheses of C17 hold for the chain 0 < 1 and the event 2, and the result has new relations -/
example : exChain2And1.Valid ∧ (∀ p ∈ ({0, 1} : Finset EId), exChain2And1.Exists p) ∧
    (∀ f ∈ ({2} : Finset EId), exChain2And1.Exists f) ∧ Closed exChain2And1.Lt {0, 1} ∧
    Closed exChain2And1.Lt {2} ∧ Disjoint ({0, 1} : Finset EId) {2} ∧
    (merge Iter.asc {0, 1} {2} false exChain2And1).2.Lt 0 2 :=
  ⟨exChain2And1_reach.reachable.valid, by decide, by decide, exChain2And1_closed.1, exChain2And1_closed.2,
    by decide, by decide⟩

/-! ## C18 -/

theorem addToFuture_unlinked {p f : EId} (hu : h.hasBeenLinked p = false) :
    (h.addToFuture p f).2.lprec = h.lprec ∧ (h.addToFuture p f).2.lsucc = h.lsucc := by
  unfold addToFuture
  split
  · exact ⟨rfl, rfl⟩
  · simp [hu]

theorem addToPast_unlinked {p f : EId} (hu : h.hasBeenLinked p = false) :
    (h.addToPast p f).2.lprec = h.lprec ∧ (h.addToPast p f).2.lsucc = h.lsucc := by
  unfold addToPast
  split
  · exact ⟨rfl, rfl⟩
  · simp [hu]

theorem hasBeenLinked_congr {h g : Heap} (h1 : g.lprec = h.lprec) (h2 : g.lsucc = h.lsucc) (e : EId) :
    g.hasBeenLinked e = h.hasBeenLinked e := by
  simp [hasBeenLinked, h1, h2]

theorem mergeInner_links (p : EId) (L : List EId) : ∀ (h : Heap), h.hasBeenLinked p = false →
    (∀ f ∈ L, h.hasBeenLinked f = false) →
    (mergeInner p L h).lprec = h.lprec ∧ (mergeInner p L h).lsucc = h.lsucc := by
  induction L with
  | nil => intro h _ _; exact ⟨rfl, rfl⟩
  | cons f fs ih =>
    intro h hp hf
    obtain ⟨a1, a2⟩ := addToFuture_unlinked (f := f) hp
    have hc := hasBeenLinked_congr a1 a2
    have hf' : (h.addToFuture p f).2.hasBeenLinked f = false := by rw [hc]; exact hf f (by simp)
    obtain ⟨b1, b2⟩ := addToPast_unlinked (f := p) hf'
    have e1 := b1.trans a1
    have e2 := b2.trans a2
    have hd := hasBeenLinked_congr e1 e2
    obtain ⟨c1, c2⟩ := ih _ (by rw [hd]; exact hp) (fun x hx => by rw [hd]; exact hf x (by simp [hx]))
    exact ⟨c1.trans e1, c2.trans e2⟩

theorem mergeLoop_links (it : Iter) (F : Finset EId) (L : List EId) : ∀ (h : Heap),
    (∀ p ∈ L, h.hasBeenLinked p = false) → (∀ f ∈ F, h.hasBeenLinked f = false) →
    (mergeLoop it F L h).lprec = h.lprec ∧ (mergeLoop it F L h).lsucc = h.lsucc := by
  induction L with
  | nil => intro h _ _; exact ⟨rfl, rfl⟩
  | cons p ps ih =>
    intro h hp hf
    obtain ⟨a1, a2⟩ := mergeInner_links p (it.ord [p, 238] F) h (hp p (by simp))
      (fun f hf' => hf f ((it.mem _ _ _).1 hf'))
    have hd := hasBeenLinked_congr a1 a2
    obtain ⟨c1, c2⟩ := ih _ (fun x hx => by rw [hd]; exact hp x (by simp [hx]))
      (fun x hx => by rw [hd]; exact hf x hx)
    exact ⟨c1.trans a1, c2.trans a2⟩

/-- **C18, positive part.** If no event of the two causets has link memory, all link memory in the program is
still exact after `merge` (so all link queries agree with the merged order, C03). -/
theorem C18_merge_links_partial (it : Iter) (v : h.Valid) (lx : h.LinksExact) (P F : Finset EId)
    (eP : ∀ p ∈ P, h.Exists p) (eF : ∀ f ∈ F, h.Exists f)
    (hP : Closed h.Lt P) (hF : Closed h.Lt F) (hd : Disjoint P F)
    (uP : ∀ p ∈ P, h.hasBeenLinked p = false) (uF : ∀ f ∈ F, h.hasBeenLinked f = false) :
    (merge it P F false h).2.LinksExact := by
  obtain ⟨h', e, v', hlt, -, -⟩ := C17_merge it v P F eP eF hP hF hd
  have l1 : (merge it P F false h).2.lprec = h.lprec ∧ (merge it P F false h).2.lsucc = h.lsucc := by
    have := mergeLoop_links it F (it.ord [237] P) h (fun p hp => uP p ((it.mem _ _ _).1 hp)) uF
    simpa [merge] using this
  rw [e] at l1 ⊢
  obtain ⟨l1, l2⟩ := l1
  simp only at l1 l2
  have un : ∀ x, h.hasBeenLinked x = false → h.lprec x = none ∧ h.lsucc x = none := by
    intro x hx
    have hb := lx.both x
    simp only [hasBeenLinked, Bool.and_eq_false_iff, Option.isSome_eq_false_iff,
      Option.isNone_iff_eq_none] at hx
    tauto
  -- relations of an event outside of P ∪ F
  have out1 : ∀ x, x ∉ P → x ∉ F → ∀ y, (h'.Lt x y ↔ h.Lt x y) ∧ (h'.Lt y x ↔ h.Lt y x) := by
    intro x h1 h2 y
    rw [hlt, hlt]
    tauto
  have out2 : ∀ x, x ∉ P → x ∉ F → ∀ y, Related h.Lt x y → y ∉ P ∧ y ∉ F := by
    intro x h1 h2 y hr
    exact ⟨fun hy => h1 (hP y hy x hr.symm), fun hy => h2 (hF y hy x hr.symm)⟩
  constructor
  · intro x s hx y
    rw [l1] at hx
    have hxP : x ∉ P := fun hx' => by rw [(un x (uP x hx')).1] at hx; cases hx
    have hxF : x ∉ F := fun hx' => by rw [(un x (uF x hx')).1] at hx; cases hx
    rw [lx.past x s hx y]
    unfold Covers
    rw [(out1 x hxP hxF y).2]
    refine and_congr_right fun hyx => forall_congr' fun c => ?_
    have := out2 x hxP hxF y (Or.inr hyx)
    rw [(out1 x hxP hxF c).2, (out1 y this.1 this.2 c).1]
  · intro x s hx y
    rw [l2] at hx
    have hxP : x ∉ P := fun hx' => by rw [(un x (uP x hx')).2] at hx; cases hx
    have hxF : x ∉ F := fun hx' => by rw [(un x (uF x hx')).2] at hx; cases hx
    rw [lx.future x s hx y]
    unfold Covers
    rw [(out1 x hxP hxF y).1]
    refine and_congr_right fun hyx => forall_congr' fun c => ?_
    have := out2 x hxP hxF y (Or.inl hyx)
    rw [(out1 x hxP hxF c).1, (out1 y this.1 this.2 c).2]
  · intro x; rw [l1, l2]; exact lx.both x

/-- With `disjoint=True` nothing changes at all, linked or not. -/
theorem C18_merge_disjoint (it : Iter) (lx : h.LinksExact) (P F : Finset EId) :
    (merge it P F true h).2.LinksExact := lx

/-- the chain 0 < 1 with link memory, and a separate event 2 -/
def exLinked2And1 : Heap := exChain2And1.link 0 |>.link 1

/-- **C18 fails for linked causets.** Linking the chain 0 < 1, then merging it before event 2: for one iteration
order the link query reports a link 0 → 2 although 0 < 1 < 2; for another it does not. -/
theorem C18_refuted : ∃ h, LinkReachable h ∧
    (∃ it, (merge it {0, 1} {2} false h).2.Lt 0 1 ∧ (merge it {0, 1} {2} false h).2.Lt 1 2 ∧
      ((isFutureLink 0 2).run (merge it {0, 1} {2} false h).2).1 = true) ∧
    (∃ it, ((isFutureLink 0 2).run (merge it {0, 1} {2} false h).2).1 = false) :=
  ⟨exLinked2And1, .link _ _ (.link _ _ exChain2And1_reach),
    ⟨Iter.asc, by decide, by decide, by decide⟩, ⟨Iter.desc, by decide⟩⟩

/-- the hypotheses of the positive part hold before linking -/
example : exChain2And1.Valid ∧ exChain2And1.LinksExact ∧
    (∀ p ∈ ({0, 1} : Finset EId), exChain2And1.hasBeenLinked p = false) ∧
    (∀ f ∈ ({2} : Finset EId), exChain2And1.hasBeenLinked f = false) :=
  ⟨exChain2And1_reach.reachable.valid, exChain2And1_reach.linksExact, by decide, by decide⟩

/-! ## C38: `Causet.link`, `LinkCount` -/

theorem linkClear_fields (L : List EId) : ∀ (h : Heap),
    (linkClear L h).lprec = h.lprec ∧
    ∀ x, (linkClear L h).lsucc x = if x ∈ L then some ∅ else h.lsucc x := by
  induction L with
  | nil => intro h; simp [linkClear]
  | cons e es ih =>
    intro h
    obtain ⟨h1, h2⟩ := ih { h with lsucc := update h.lsucc e (some ∅) }
    refine ⟨h1, fun x => ?_⟩
    rw [linkClear, h2]
    by_cases hx : x ∈ es
    · simp [hx]
    · by_cases hxe : x = e
      · subst hxe; simp
      · simp [hx, hxe]

theorem linkAddSucc_ok (b : EId) (L : List EId) : ∀ (h : Heap), (∀ a ∈ L, (h.lsucc a).isSome) →
    (linkAddSucc b L h).1 = .ok () ∧ (linkAddSucc b L h).2.lprec = h.lprec ∧
    ∀ x, (linkAddSucc b L h).2.lsucc x =
      if x ∈ L then (h.lsucc x).map (insert b ·) else h.lsucc x := by
  induction L with
  | nil => intro h _; simp [linkAddSucc]
  | cons a as ih =>
    intro h hs
    obtain ⟨t, ht⟩ := Option.isSome_iff_exists.1 (hs a (by simp))
    obtain ⟨h1, h2, h3⟩ := ih { h with lsucc := update h.lsucc a (some (insert b t)) } (fun x hx => by
      by_cases hxa : x = a
      · subst hxa; simp
      · simp only [Function.update_of_ne hxa]; exact hs x (by simp [hx]))
    rw [linkAddSucc, ht]
    refine ⟨h1, h2, fun x => ?_⟩
    simp only [h3]
    by_cases hxa : x = a
    · subst hxa
      by_cases hx : x ∈ as <;> simp [hx, ht]
    · by_cases hx : x ∈ as <;> simp [hx, hxa]

/-- state of the second loop of `Causet.link`: the events of `D` have been visited -/
structure LinkInv (h : Heap) (C D : Finset EId) (g : Heap) : Prop where
  same : h.SameOrder g
  lprec : ∀ x, g.lprec x = if x ∈ D then some (h.pastLinks x) else h.lprec x
  lsucc : ∀ x, g.lsucc x = if x ∈ C then some (h.futureLinks x ∩ D) else h.lsucc x

theorem linkCompute_ok (it : Iter) (v : h.Valid) (C : Finset EId) (hC : Closed h.Lt C) (L : List EId) :
    ∀ (D : Finset EId) (g : Heap), (∀ b ∈ L, b ∈ C) → D ⊆ C → LinkInv h C D g →
    (linkCompute it L g).1 = .ok () ∧ LinkInv h C (D ∪ L.toFinset) (linkCompute it L g).2 := by
  induction L with
  | nil => intro D g _ _ inv; exact ⟨rfl, by simpa [linkCompute] using inv⟩
  | cons b bs ih =>
    intro D g hL hD inv
    have hbC := hL b (by simp)
    have hpl : g.pastLinks b = h.pastLinks b := inv.same.pastLinks b
    have hsub : ∀ a ∈ h.pastLinks b, a ∈ C := fun a ha =>
      hC b hbC a (Or.inr ((mem_pastLinks v a b).1 ha).1)
    let g1 : Heap := { g with lprec := update g.lprec b (some (h.pastLinks b)) }
    obtain ⟨k1, k2, k3⟩ := linkAddSucc_ok b (it.ord [b, 291] (h.pastLinks b)) g1 (fun a ha => by
      rw [it.mem] at ha
      show (g.lsucc a).isSome
      rw [inv.lsucc, if_pos (hsub a ha)]; rfl)
    have so1 : h.SameOrder (linkAddSucc b (it.ord [b, 291] (h.pastLinks b)) g1).2 :=
      (inv.same.trans (⟨rfl, rfl, rfl, rfl⟩ : g.SameOrder g1)).trans (linkAddSucc_sameOrder _ _ _)
    have inv' : LinkInv h C (insert b D) (linkAddSucc b (it.ord [b, 291] (h.pastLinks b)) g1).2 := by
      refine ⟨so1, fun x => ?_, fun x => ?_⟩
      · rw [k2]
        show update g.lprec b (some (h.pastLinks b)) x = _
        by_cases hx : x = b
        · subst hx; simp
        · rw [Function.update_of_ne hx, inv.lprec]
          simp [hx]
      · rw [k3]
        show (if _ then (g.lsucc x).map _ else g.lsucc x) = _
        rw [inv.lsucc]
        by_cases hx : x ∈ C
        · simp only [hx, if_true, it.mem, Option.map_some]
          by_cases hxb : x ∈ h.pastLinks b
          · rw [if_pos hxb, Finset.inter_insert_of_mem]
            exact (mem_futureLinks v b x).2 ((mem_pastLinks v x b).1 hxb)
          · rw [if_neg hxb, Finset.inter_insert_of_notMem]
            exact fun hc => hxb ((mem_pastLinks v x b).2 ((mem_futureLinks v b x).1 hc))
        · simp only [hx, if_false, it.mem]
          rw [if_neg fun hc => hx (hsub x hc)]
    obtain ⟨r1, r2⟩ := ih (insert b D) _ (fun x hx => hL x (by simp [hx]))
      (by intro x hx; rcases Finset.mem_insert.1 hx with rfl | hx <;> [exact hbC; exact hD hx]) inv'
    have e : linkCompute it (b :: bs) g =
        linkCompute it bs (linkAddSucc b (it.ord [b, 291] (h.pastLinks b)) g1).2 := by
      conv_lhs => unfold linkCompute
      simp only [hpl]
      generalize hq : linkAddSucc b (it.ord [b, 291] (h.pastLinks b)) g1 = q at k1
      obtain ⟨q1, q2⟩ := q
      simp only at k1
      subst k1
      rfl
    rw [e]
    refine ⟨r1, ?_⟩
    convert r2 using 1
    ext x; simp

theorem causetLink_inv (it : Iter) (v : h.Valid) (C : Finset EId) (hC : Closed h.Lt C) :
    (causetLink it C h).1 = .ok () ∧ LinkInv h C C (causetLink it C h).2 := by
  obtain ⟨c1, c2⟩ := linkClear_fields (it.ord [286] C) h
  have inv0 : LinkInv h C ∅ (linkClear (it.ord [286] C) h) := by
    refine ⟨linkClear_sameOrder _ _, fun x => ?_, fun x => ?_⟩
    · rw [c1]; simp
    · rw [c2]; simp [it.mem]
  obtain ⟨r1, r2⟩ := linkCompute_ok it v C hC (it.ord [289] C) ∅ _ (fun b hb => (it.mem _ _ _).1 hb)
    (by simp) inv0
  refine ⟨r1, ?_⟩
  have hC' : ∅ ∪ (it.ord [289] C).toFinset = C := by ext x; simp [it.mem]
  rw [hC'] at r2
  exact r2

/-- **C38.** On a causally closed causet `link()` succeeds; afterwards every event of the causet has link memory,
it holds exactly the links of the current order (even if it was wrong before, e.g. after `disjoin`), the link
memory of other events is untouched, and so is the order. -/
theorem C38_link (it : Iter) (v : h.Valid) (C : Finset EId) (hC : Closed h.Lt C) :
    ∃ h', causetLink it C h = (.ok (), h') ∧ h.SameOrder h' ∧
      (∀ e ∈ C, ∃ p s, h'.lprec e = some p ∧ h'.lsucc e = some s ∧
        (∀ x, x ∈ p ↔ Covers h'.Lt x e) ∧ (∀ x, x ∈ s ↔ Covers h'.Lt e x)) ∧
      (∀ e, e ∉ C → h'.lprec e = h.lprec e ∧ h'.lsucc e = h.lsucc e) := by
  obtain ⟨r1, r2⟩ := causetLink_inv it v C hC
  refine ⟨_, Prod.ext r1 rfl, r2.same, fun e he => ?_, fun e he => ?_⟩
  · refine ⟨h.pastLinks e, h.futureLinks e ∩ C, by rw [r2.lprec, if_pos he],
      by rw [r2.lsucc, if_pos he], fun x => ?_, fun x => ?_⟩
    · rw [r2.same.Lt]; exact mem_pastLinks v x e
    · rw [r2.same.Lt, Finset.mem_inter, mem_futureLinks v x e]
      exact and_iff_left_of_imp fun hx => hC e he x (Or.inl hx.1)
  · rw [r2.lprec, r2.lsucc, if_neg he, if_neg he]; exact ⟨rfl, rfl⟩

/-- **C38, whole state.** If all other link memory was exact, everything is exact after `link()`. -/
theorem C38_link_exact (it : Iter) (v : h.Valid) (C : Finset EId) (hC : Closed h.Lt C)
    (lx : h.LinksExact) : (causetLink it C h).2.LinksExact := by
  obtain ⟨h', e, so, h1, h2⟩ := C38_link it v C hC
  rw [e]
  refine ⟨fun x s hx y => ?_, fun x s hx y => ?_, fun x => ?_⟩ <;> by_cases hxC : x ∈ C
  · obtain ⟨p, t, h3, h4, h5, h6⟩ := h1 x hxC
    simp only [h3, Option.some.injEq] at hx; subst hx; exact h5 y
  · simp only [(h2 x hxC).1] at hx; simp only [so.Lt]; exact lx.past x s hx y
  · obtain ⟨p, t, h3, h4, h5, h6⟩ := h1 x hxC
    simp only [h4, Option.some.injEq] at hx; subst hx; exact h6 y
  · simp only [(h2 x hxC).2] at hx; simp only [so.Lt]; exact lx.future x s hx y
  · obtain ⟨p, t, h3, h4, -⟩ := h1 x hxC
    simp [h3, h4]
  · simp only [h2 x hxC]; exact lx.both x

theorem sum_ord (it : Iter) (c : List ℕ) (s : Finset EId) (f : EId → ℕ) :
    ((it.ord c s).map f).sum = ∑ e ∈ s, f e := by
  have h1 : (it.ord c s).toFinset = s := by ext x; simp [it.mem]
  conv_rhs => rw [← h1]
  exact (List.sum_toFinset f (it.nodup c s)).symm

open Classical in
theorem card_links (v : h.Valid) (s : Finset EId) :
    ∑ e ∈ s, (h.pastLinks e ∩ s).card =
      ((s ×ˢ s).filter (fun p => Covers h.Lt p.1 p.2)).card := by
  have h1 : ((s ×ˢ s).filter (fun p => Covers h.Lt p.1 p.2)) =
      s.biUnion (fun e => (h.pastLinks e ∩ s).image (fun x => (x, e))) := by
    ext ⟨a, b⟩
    simp only [Finset.mem_filter, Finset.mem_product, Finset.mem_biUnion, Finset.mem_image,
      Finset.mem_inter, mem_pastLinks v, Prod.mk.injEq]
    constructor
    · rintro ⟨⟨h1, h2⟩, h3⟩; exact ⟨b, h2, a, ⟨h3, h1⟩, rfl, rfl⟩
    · rintro ⟨e, h1, x, ⟨h2, h3⟩, rfl, rfl⟩; exact ⟨⟨h3, h1⟩, h2⟩
  rw [h1, Finset.card_biUnion]
  · refine Finset.sum_congr rfl fun e _ => (Finset.card_image_of_injective _ fun a b hab => ?_).symm
    exact (Prod.mk.inj hab).1
  · intro a _ b _ hab
    simp only [Function.onFun, Finset.disjoint_left, Finset.mem_image]
    rintro _ ⟨x, -, rfl⟩ ⟨y, -, hy⟩
    exact hab (Prod.mk.inj hy).2.symm

open Classical in
/-- **C38, link count.** `LinkCount(S)` is the number of pairs of events of `S` that are links of the order (a
link between two events of `S` with an event outside of `S` in between is not counted). -/
theorem C38_linkCount_of (it : Iter) (v : h.Valid) (C s : Finset EId) :
    h.Answers (linkCount it C (some s))
      ((s ×ˢ s).filter (fun p => Covers h.Lt p.1 p.2)).card := by
  unfold linkCount
  refine Answers.bind (x := (it.ord [310] s).map (fun e => (h.pastLinks e ∩ s).card))
    (Answers.mapM _ (fun e _ => Answers.bind (linkPast_answers v e) Answers.pure)) ?_
  rw [sum_ord, card_links v]
  exact Answers.pure

open Classical in
/-- **C38, link count of a causet.** For a causally closed causet `LinkCount()` is its number of links. -/
theorem C38_linkCount (it : Iter) (v : h.Valid) (C : Finset EId) (hC : Closed h.Lt C) :
    h.Answers (linkCount it C none)
      ((C ×ˢ C).filter (fun p => Covers h.Lt p.1 p.2)).card := by
  unfold linkCount
  refine Answers.bind (x := (it.ord [308] C).map (fun e => (h.pastLinks e).card))
    (Answers.mapM _ (fun e _ => linkPastCard_answers v e)) ?_
  rw [sum_ord, ← card_links v]
  have : ∑ e ∈ C, (h.pastLinks e).card = ∑ e ∈ C, (h.pastLinks e ∩ C).card :=
    Finset.sum_congr rfl fun e he => by
      rw [Finset.inter_eq_left.2 fun x hx => hC e he x (Or.inr ((mem_pastLinks v x e).1 hx).1)]
  rw [this]
  exact Answers.pure

theorem exDiamond_closed : Closed exDiamond.Lt {0, 1, 2, 3} := by
  intro a _ b hab
  have hb : exDiamond.Exists b := by
    rcases hab with hab | hab
    exacts [(exDiamond_valid.exists_of_lt _ _ hab).2, (exDiamond_valid.exists_of_lt _ _ hab).1]
  have : b < 4 := hb
  have key : ∀ b < 4, b ∈ ({0, 1, 2, 3} : Finset EId) := by decide
  exact key b this

/-- the hypotheses hold for the diamond, which has four links -/
example : exDiamond.Valid ∧ Closed exDiamond.Lt {0, 1, 2, 3} ∧ exDiamond.LinksExact ∧
    ((linkCount Iter.asc {0, 1, 2, 3} none).run exDiamond).1 = 4 :=
  ⟨exDiamond_valid, exDiamond_closed, exDiamond_reach.linksExact, by decide⟩

/-- **C38 needs closure.** On a causet that is not causally closed (here: what is left of a 3-chain after
`discard`) `link()` raises an AttributeError, or, if the discarded event happens to have link memory, succeeds
and leaves an event with incomplete link memory. -/
theorem C38_needs_closure :
    (causetLink Iter.asc {0, 2} exChain3).1 = .error .attributeError ∧
    (causetLink Iter.asc {0, 2} (exChain3.link 1)).1 = .ok () ∧
    (causetLink Iter.asc {0, 2} (exChain3.link 1)).2.lsucc 0 = some ∅ ∧
    ¬ (causetLink Iter.asc {0, 2} (exChain3.link 1)).2.LinksExact := by
  refine ⟨by decide, by decide, by decide, fun lx => ?_⟩
  have h1 := (lx.future 0 ∅ (by decide) 1).2
  have h2 : Covers (causetLink Iter.asc {0, 2} (exChain3.link 1)).2.Lt 0 1 := by
    refine ⟨by decide, fun c hc => ?_⟩
    have so := causetLink_sameOrder Iter.asc {0, 2} (exChain3.link 1)
    have v : (causetLink Iter.asc {0, 2} (exChain3.link 1)).2.Valid :=
      so.valid ((link_sameOrder exChain3 1).valid exChain3_reach.reachable.valid)
    have hc3 : c < 3 := by
      have := (v.exists_of_lt _ _ hc.1).2
      exact this
    have key : ∀ c < 3, ¬ ((causetLink Iter.asc {0, 2} (exChain3.link 1)).2.Lt 0 c ∧
      (causetLink Iter.asc {0, 2} (exChain3.link 1)).2.Lt c 1) := by decide
    exact key c hc3 hc
  exact absurd (h1 h2) (by simp)

end Causets
