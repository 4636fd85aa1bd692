import Verif.Model.Embedding
import Verif.Props.Matrix
import Verif.Props.MergeLink

/-! # C42, C46, C65: `relate`, `create`, `relabel` -/

namespace Causets

open Heap

open Function (update)

variable {h : Heap} {α : Type}

/-! ## unlinking a whole causet -/

theorem unlinkLinked_spec : ∀ (L : List EId) (h : Heap), L.Nodup →
    ∃ h', unlinkLinked L h = (.ok (), h') ∧ h.SameOrder h' ∧
      (∀ e ∈ L, h.hasBeenLinked e = true → h'.lprec e = none ∧ h'.lsucc e = none) ∧
      (∀ e, e ∉ L ∨ h.hasBeenLinked e = false → h'.lprec e = h.lprec e ∧ h'.lsucc e = h.lsucc e) := by
  intro L
  induction L with
  | nil => intro h _; exact ⟨h, rfl, SameOrder.refl h, by simp, fun _ _ => ⟨rfl, rfl⟩⟩
  | cons a L ih =>
    intro h hnd
    obtain ⟨haL, hnd⟩ := List.nodup_cons.1 hnd
    unfold unlinkLinked
    by_cases hl : h.hasBeenLinked a = true
    · rw [if_pos hl]
      unfold hasBeenLinked at hl
      rw [Bool.and_eq_true] at hl
      obtain ⟨p, hp⟩ := Option.isSome_iff_exists.1 hl.1
      obtain ⟨s, hs⟩ := Option.isSome_iff_exists.1 hl.2
      have hu : h.unlink a = (.ok (), { h with lprec := update h.lprec a none, lsucc := update h.lsucc a none }) := by
        unfold unlink
        rw [hp]; dsimp only; rw [hs]
      rw [hu]
      dsimp only
      obtain ⟨h', e1, so, e2, e3⟩ := ih { h with lprec := update h.lprec a none, lsucc := update h.lsucc a none } hnd
      have hsame : ∀ e, e ≠ a → (update h.lprec a none e = h.lprec e ∧ update h.lsucc a none e = h.lsucc e) :=
        fun e he => ⟨Function.update_of_ne he _ _, Function.update_of_ne he _ _⟩
      have hbl : ∀ e, e ≠ a → (Heap.hasBeenLinked { h with lprec := update h.lprec a none, lsucc := update h.lsucc a none } e)
          = h.hasBeenLinked e := fun e he => by
        unfold hasBeenLinked
        dsimp only
        rw [(hsame e he).1, (hsame e he).2]
      refine ⟨h', e1, ⟨so.next, so.label, so.prec, so.succ⟩, fun e he hle => ?_, fun e he => ?_⟩
      · by_cases hea : e = a
        · subst hea
          have := e3 e (Or.inl haL)
          dsimp only at this
          rw [Function.update_self, Function.update_self] at this
          exact this
        · exact e2 e ((List.mem_cons.1 he).resolve_left hea) (by rw [hbl e hea]; exact hle)
      · have hea : e ≠ a := by
          rintro rfl
          rcases he with he | he
          · simp at he
          · unfold hasBeenLinked at he; rw [hp, hs] at he; simp at he
        have := e3 e (he.imp (fun hh => fun hc => hh (by simp [hc])) (fun hh => by rw [hbl e hea]; exact hh))
        dsimp only at this
        rw [(hsame e hea).1, (hsame e hea).2] at this
        exact this
    · rw [if_neg hl]
      obtain ⟨h', e1, so, e2, e3⟩ := ih h hnd
      refine ⟨h', e1, so, fun e he hle => ?_, fun e he => ?_⟩
      · rcases List.mem_cons.1 he with rfl | he
        · exact absurd hle hl
        · exact e2 e he hle
      · by_cases hea : e = a
        · subst hea; exact e3 e (Or.inl haL)
        · exact e3 e (he.imp (fun hh => fun hc => hh (by simp [hc])) id)

/-- **C38, unlink.** `unlink()` of a causet never raises; afterwards no event of the causet that was linked has link memory, nothing else
changes. -/
theorem C38_unlink (it : Iter) (C : Finset EId) (h : Heap) :
    ∃ h', causetUnlink it C h = (.ok (), h') ∧ h.SameOrder h' ∧
      (∀ e ∈ C, h.hasBeenLinked e = true → h'.lprec e = none ∧ h'.lsucc e = none) ∧
      (∀ e, e ∉ C ∨ h.hasBeenLinked e = false → h'.lprec e = h.lprec e ∧ h'.lsucc e = h.lsucc e) := by
  obtain ⟨h', e1, so, e2, e3⟩ := unlinkLinked_spec (it.ord [298] C) h (it.nodup _ _)
  exact ⟨h', e1, so, fun e he => e2 e ((it.mem _ _ _).2 he), fun e he => e3 e (he.imp (fun hh => fun hc => hh ((it.mem _ _ _).1 hc)) id)⟩

/-! ## the loops of `relate` -/

theorem relatePair_mem (r : Bool × Bool) (a b : EId) (hab : a ≠ b) (h : Heap) :
    (h.relatePair r a b).next = h.next ∧ (h.relatePair r a b).label = h.label ∧
    (h.relatePair r a b).lprec = h.lprec ∧ (h.relatePair r a b).lsucc = h.lsucc ∧
    (∀ x y, x ∈ (h.relatePair r a b).prec y ↔ x ∈ h.prec y ∨ (x = a ∧ y = b ∧ r.1 = true) ∨ (x = b ∧ y = a ∧ r.2 = true)) ∧
    (∀ x y, y ∈ (h.relatePair r a b).succ x ↔ y ∈ h.succ x ∨ (x = a ∧ y = b ∧ r.1 = true) ∨ (x = b ∧ y = a ∧ r.2 = true)) := by
  have upd : ∀ (f : EId → Finset EId) (p q x y : EId), x ∈ update f p (insert q (f p)) y ↔ x ∈ f y ∨ (x = q ∧ y = p) := by
    intro f p q x y
    by_cases hy : y = p
    · subst hy; simp [or_comm]
    · rw [Function.update_of_ne hy]; simp [hy]
  obtain ⟨r1, r2⟩ := r
  unfold relatePair
  cases r1 <;> cases r2 <;> refine ⟨by simp, by simp, by simp, by simp, fun x y => ?_, fun x y => ?_⟩ <;>
    simp [upd] <;> tauto

/-- **Specification.** `a` occurs before `b` in the list. -/
def Before (L : List EId) (a b : EId) : Prop := [a, b].Sublist L

theorem before_nil (a b : EId) : ¬ Before [] a b := by simp [Before]

theorem before_cons (x : EId) (L : List EId) (a b : EId) : Before (x :: L) a b ↔ Before L a b ∨ (a = x ∧ b ∈ L) := by
  unfold Before
  rw [List.sublist_cons_iff]
  constructor
  · rintro (h1 | ⟨r, h1, h2⟩)
    · exact Or.inl h1
    · simp only [List.cons.injEq] at h1
      obtain ⟨rfl, rfl⟩ := h1
      exact Or.inr ⟨rfl, by simpa using h2⟩
  · rintro (h1 | ⟨rfl, h2⟩)
    · exact Or.inl h1
    · exact Or.inr ⟨[b], rfl, by simpa using h2⟩

theorem Before.mem {L : List EId} {a b : EId} (hb : Before L a b) : a ∈ L ∧ b ∈ L :=
  ⟨hb.subset (by simp), hb.subset (by simp)⟩

theorem before_total {L : List EId} (hnd : L.Nodup) {a b : EId} (ha : a ∈ L) (hb : b ∈ L) (hab : a ≠ b) :
    Before L a b ∨ Before L b a := by
  induction L with
  | nil => simp at ha
  | cons x L ih =>
    obtain ⟨hx, hnd⟩ := List.nodup_cons.1 hnd
    rw [before_cons, before_cons]
    rcases List.mem_cons.1 ha with rfl | ha' <;> rcases List.mem_cons.1 hb with rfl | hb'
    · exact absurd rfl hab
    · exact Or.inl (Or.inr ⟨rfl, hb'⟩)
    · exact Or.inr (Or.inr ⟨rfl, ha'⟩)
    · rcases ih hnd ha' hb' with h1 | h1
      · exact Or.inl (Or.inl h1)
      · exact Or.inr (Or.inl h1)

theorem before_asymm {L : List EId} (hnd : L.Nodup) {a b : EId} (h1 : Before L a b) : ¬ Before L b a := by
  induction L with
  | nil => exact absurd h1 (before_nil _ _)
  | cons x L ih =>
    obtain ⟨hx, hnd⟩ := List.nodup_cons.1 hnd
    rw [before_cons] at h1 ⊢
    rintro (h2 | ⟨rfl, h2⟩) <;> rcases h1 with h1 | ⟨rfl, h1⟩
    · exact ih hnd h1 h2
    · exact hx h2.mem.2
    · exact hx h1.mem.2
    · exact hx h1

theorem before_irrefl {L : List EId} (hnd : L.Nodup) (a : EId) : ¬ Before L a a := fun h1 => before_asymm hnd h1 h1

theorem before_trans {L : List EId} (hnd : L.Nodup) {a b d : EId} (h1 : Before L a b) (h2 : Before L b d) : Before L a d := by
  induction L with
  | nil => exact absurd h1 (before_nil _ _)
  | cons x L ih =>
    obtain ⟨hx, hnd⟩ := List.nodup_cons.1 hnd
    rw [before_cons] at *
    rcases h1 with h1 | ⟨rfl, h1⟩ <;> rcases h2 with h2 | ⟨rfl, h2⟩
    · exact Or.inl (ih hnd h1 h2)
    · exact absurd h1.mem.2 hx
    · exact Or.inr ⟨rfl, h2.mem.2⟩
    · exact absurd h1 hx

/-- **Specification.** The relation that the causality function `c` gives to events at the positions `pos`, asked once for every pair in the
order of the list `L`: `a` precedes `b` if `a` comes first and `c` answers "first before second", or `b` comes first and `c` answers
"first after second". -/
def RelOf (c : α → α → Bool × Bool) (pos : EId → α) (L : List EId) (a b : EId) : Prop :=
  (Before L a b ∧ (c (pos a) (pos b)).1 = true) ∨ (Before L b a ∧ (c (pos b) (pos a)).2 = true)

theorem relateRow_spec (c : α → α → Bool × Bool) (crd : EId → Option α) (pos : EId → α) (a : EId) (ha : crd a = some (pos a)) :
    ∀ (L : List EId) (h : Heap), (∀ e ∈ L, crd e = some (pos e)) → a ∉ L →
    ∃ h', relateRow c crd a L h = (.ok (), h') ∧ h'.next = h.next ∧ h'.label = h.label ∧ h'.lprec = h.lprec ∧ h'.lsucc = h.lsucc ∧
      (∀ x y, x ∈ h'.prec y ↔ x ∈ h.prec y ∨ (x = a ∧ y ∈ L ∧ (c (pos x) (pos y)).1 = true) ∨
        (y = a ∧ x ∈ L ∧ (c (pos y) (pos x)).2 = true)) ∧
      (∀ x y, y ∈ h'.succ x ↔ y ∈ h.succ x ∨ (x = a ∧ y ∈ L ∧ (c (pos x) (pos y)).1 = true) ∨
        (y = a ∧ x ∈ L ∧ (c (pos y) (pos x)).2 = true)) := by
  intro L
  induction L with
  | nil => intro h _ _; exact ⟨h, rfl, rfl, rfl, rfl, rfl, by simp, by simp⟩
  | cons b L ih =>
    intro h hL haL
    have hab : a ≠ b := fun hh => haL (by simp [hh])
    unfold relateRow
    rw [ha, hL b (by simp)]
    dsimp only
    obtain ⟨k1, k2, k3, k4, k5, k6⟩ := relatePair_mem (c (pos a) (pos b)) a b hab h
    obtain ⟨h', e1, e2, e3, e4, e5, e6, e7⟩ := ih (h.relatePair (c (pos a) (pos b)) a b) (fun e he => hL e (by simp [he]))
      (fun hh => haL (by simp [hh]))
    refine ⟨h', e1, e2.trans k1, e3.trans k2, e4.trans k3, e5.trans k4, fun x y => ?_, fun x y => ?_⟩
    · rw [e6, k5]
      simp only [List.mem_cons]
      constructor
      · rintro ((h1 | ⟨rfl, rfl, h1⟩ | ⟨rfl, rfl, h1⟩) | h1 | h1) <;> tauto
      · rintro (h1 | ⟨rfl, rfl | h1, h2⟩ | ⟨rfl, rfl | h1, h2⟩) <;> tauto
    · rw [e7, k6]
      simp only [List.mem_cons]
      constructor
      · rintro ((h1 | ⟨rfl, rfl, h1⟩ | ⟨rfl, rfl, h1⟩) | h1 | h1) <;> tauto
      · rintro (h1 | ⟨rfl, rfl | h1, h2⟩ | ⟨rfl, rfl | h1, h2⟩) <;> tauto

theorem relateRows_spec (c : α → α → Bool × Bool) (crd : EId → Option α) (pos : EId → α) :
    ∀ (L : List EId) (h : Heap), L.Nodup → (∀ e ∈ L, crd e = some (pos e)) →
    ∃ h', relateRows c crd L h = (.ok (), h') ∧ h'.next = h.next ∧ h'.label = h.label ∧ h'.lprec = h.lprec ∧ h'.lsucc = h.lsucc ∧
      (∀ x y, x ∈ h'.prec y ↔ x ∈ h.prec y ∨ RelOf c pos L x y) ∧ (∀ x y, y ∈ h'.succ x ↔ y ∈ h.succ x ∨ RelOf c pos L x y) := by
  intro L
  induction L with
  | nil => intro h _ _; exact ⟨h, rfl, rfl, rfl, rfl, rfl, by simp [RelOf, before_nil], by simp [RelOf, before_nil]⟩
  | cons a L ih =>
    intro h hnd hL
    obtain ⟨haL, hnd⟩ := List.nodup_cons.1 hnd
    obtain ⟨h1, k1, k2, k3, k4, k5, k6, k7⟩ := relateRow_spec c crd pos a (hL a (by simp)) L h (fun e he => hL e (by simp [he])) haL
    obtain ⟨h', e1, e2, e3, e4, e5, e6, e7⟩ := ih h1 hnd (fun e he => hL e (by simp [he]))
    unfold relateRows
    rw [k1]
    refine ⟨h', e1, e2.trans k2, e3.trans k3, e4.trans k4, e5.trans k5, fun x y => ?_, fun x y => ?_⟩
    · rw [e6, k6]; unfold RelOf; simp only [before_cons]; tauto
    · rw [e7, k7]; unfold RelOf; simp only [before_cons]; tauto

theorem relateClear_spec : ∀ (L : List EId) (h : Heap),
    (relateClear L h).next = h.next ∧ (relateClear L h).label = h.label ∧ (relateClear L h).lprec = h.lprec ∧
    (relateClear L h).lsucc = h.lsucc ∧ (∀ y, (relateClear L h).prec y = if y ∈ L then ∅ else h.prec y) ∧
    (∀ y, (relateClear L h).succ y = if y ∈ L then ∅ else h.succ y) := by
  intro L
  induction L with
  | nil => intro h; simp [relateClear]
  | cons a L ih =>
    intro h
    unfold relateClear
    obtain ⟨e1, e2, e3, e4, e5, e6⟩ := ih { h with prec := update h.prec a ∅, succ := update h.succ a ∅ }
    refine ⟨e1, e2, e3, e4, fun y => ?_, fun y => ?_⟩
    · rw [e5]
      by_cases hy : y ∈ L
      · simp [hy]
      · by_cases hya : y = a
        · subst hya; simp
        · simp [hy, hya]
    · rw [e6]
      by_cases hy : y ∈ L
      · simp [hy]
      · by_cases hya : y = a
        · subst hya; simp
        · simp [hy, hya]

/-- state after the double loop -/
theorem relate_loops (c : α → α → Bool × Bool) (it : Iter) (C : Finset EId) (w : World α) (pos : EId → α)
    (hpos : ∀ e ∈ C, w.crd e = some (pos e)) :
    ∃ h', relateRows c w.crd (it.ord [221] C) (relateClear (it.ord [218] C) w.heap) = (.ok (), h') ∧
      h'.next = w.heap.next ∧ h'.label = w.heap.label ∧ h'.lprec = w.heap.lprec ∧ h'.lsucc = w.heap.lsucc ∧
      (∀ x y, x ∈ h'.prec y ↔ (y ∉ C ∧ x ∈ w.heap.prec y) ∨ RelOf c pos (it.ord [221] C) x y) ∧
      (∀ x y, y ∈ h'.succ x ↔ (x ∉ C ∧ y ∈ w.heap.succ x) ∨ RelOf c pos (it.ord [221] C) x y) := by
  obtain ⟨k1, k2, k3, k4, k5, k6⟩ := relateClear_spec (it.ord [218] C) w.heap
  obtain ⟨h', e1, e2, e3, e4, e5, e6, e7⟩ := relateRows_spec c w.crd pos (it.ord [221] C) (relateClear (it.ord [218] C) w.heap)
    (it.nodup _ _) (fun e he => hpos e ((it.mem _ _ _).1 he))
  refine ⟨h', e1, e2.trans k1, e3.trans k2, e4.trans k3, e5.trans k4, fun x y => ?_, fun x y => ?_⟩
  · rw [e6, k5]
    by_cases hy : y ∈ C
    · rw [if_pos ((it.mem _ _ _).2 hy)]; simp [hy]
    · rw [if_neg (fun hh => hy ((it.mem _ _ _).1 hh))]; simp [hy]
  · rw [e7, k6]
    by_cases hy : x ∈ C
    · rw [if_pos ((it.mem _ _ _).2 hy)]; simp [hy]
    · rw [if_neg (fun hh => hy ((it.mem _ _ _).1 hh))]; simp [hy]

theorem RelOf.mem {c : α → α → Bool × Bool} {pos : EId → α} {it : Iter} {k : List ℕ} {C : Finset EId} {a b : EId}
    (hr : RelOf c pos (it.ord k C) a b) : a ∈ C ∧ b ∈ C := by
  rcases hr with ⟨h1, -⟩ | ⟨h1, -⟩
  · exact ⟨(it.mem _ _ _).1 h1.mem.1, (it.mem _ _ _).1 h1.mem.2⟩
  · exact ⟨(it.mem _ _ _).1 h1.mem.2, (it.mem _ _ _).1 h1.mem.1⟩

/-- **C42, any causality function.** Whatever the causality function answers, after `relate` the relation among the events of the causet is
exactly what it answered for the enumeration of the events, `Past` and `Future` mirror each other on the causet, events outside keep their
past, and if the causality function never reports both directions then at most one of `a < b`, `b < a` holds. -/
theorem C42_relate (c : α → α → Bool × Bool) (it : Iter) (C : Finset EId) (link : Bool) (w : World α) (pos : EId → α)
    (hpos : ∀ e ∈ C, w.crd e = some (pos e)) :
    let h' := (relate c it C link w).2.heap
    ∃ L : List EId, L.Nodup ∧ (∀ e, e ∈ L ↔ e ∈ C) ∧
      (∀ a, ∀ b ∈ C, h'.Lt a b ↔ RelOf c pos L a b) ∧
      (∀ a, ∀ b ∈ C, a ∈ h'.past b ↔ h'.Lt a b) ∧
      (∀ a ∈ C, ∀ b ∈ C, b ∈ h'.future a ↔ h'.Lt a b) ∧
      (∀ a b, b ∉ C → (h'.Lt a b ↔ w.heap.Lt a b)) ∧
      ((∀ x y, ¬ ((c x y).1 = true ∧ (c x y).2 = true)) → ∀ a ∈ C, ∀ b ∈ C, ¬ (h'.Lt a b ∧ h'.Lt b a)) := by
  obtain ⟨h1, e1, e2, e3, e4, e5, e6, e7⟩ := relate_loops c it C w pos hpos
  have hso : h1.SameOrder (relate c it C link w).2.heap := by
    unfold relate
    rw [e1]
    dsimp only
    cases link
    · obtain ⟨h2, g1, g2, -⟩ := C38_unlink it C h1
      simp only [Bool.false_eq_true, if_false, g1]; exact g2
    · simp only [if_true]; exact causetLink_sameOrder it C h1
  intro h'
  have hLt : ∀ a b, h'.Lt a b ↔ (b ∉ C ∧ a ∈ w.heap.prec b) ∨ RelOf c pos (it.ord [221] C) a b := by
    intro a b
    show (relate c it C link w).2.heap.Lt a b ↔ _
    rw [hso.Lt, ← e6]
    unfold Heap.Lt Heap.lt; simp
  have hfut : ∀ a b, b ∈ h'.future a ↔ (a ∉ C ∧ b ∈ w.heap.succ a) ∨ RelOf c pos (it.ord [221] C) a b := by
    intro a b
    show b ∈ (relate c it C link w).2.heap.succ a ↔ _
    rw [hso.succ, ← e7]
  refine ⟨it.ord [221] C, it.nodup _ _, fun e => it.mem _ _ _, fun a b hb => ?_, fun a b _ => ?_, fun a ha b hb => ?_,
    fun a b hb => ?_, fun hex a ha b hb hh => ?_⟩
  · rw [hLt]; simp [hb]
  · unfold Heap.Lt Heap.lt Heap.past; simp
  · rw [hfut, hLt]; simp [ha, hb]
  · rw [hLt]
    have : ¬ RelOf c pos (it.ord [221] C) a b := fun hr => hb hr.mem.2
    unfold Heap.Lt Heap.lt; simp [hb, this]
  · rw [hLt, hLt] at hh
    simp only [ha, hb, not_true_eq_false, false_and, false_or] at hh
    have hnd := it.nodup [221] C
    rcases hh with ⟨⟨b1, c1⟩ | ⟨b1, c1⟩, ⟨b2, c2⟩ | ⟨b2, c2⟩⟩
    · exact before_asymm hnd b1 b2
    · exact hex _ _ ⟨c1, c2⟩
    · exact hex _ _ ⟨c2, c1⟩
    · exact before_asymm hnd b1 b2

/-- **Specification.** A causality function describes a causal order on the points `S`: "first not after second" is transitive, and "first
after second" means that the second precedes the first but not conversely. -/
structure IsCausalOrder (c : α → α → Bool × Bool) (S : Set α) : Prop where
  trans : ∀ x ∈ S, ∀ y ∈ S, ∀ z ∈ S, (c x y).1 = true → (c y z).1 = true → (c x z).1 = true
  after : ∀ x ∈ S, ∀ y ∈ S, ((c x y).2 = true ↔ (c y x).1 = true ∧ (c x y).1 = false)

theorem RelOf.weak {c : α → α → Bool × Bool} {S : Set α} (hc : IsCausalOrder c S) {pos : EId → α} {L : List EId}
    (hS : ∀ e ∈ L, pos e ∈ S) {a b : EId} (hr : RelOf c pos L a b) :
    (c (pos a) (pos b)).1 = true ∧ (Before L a b ∨ (c (pos b) (pos a)).1 = false) := by
  rcases hr with ⟨h1, h2⟩ | ⟨h1, h2⟩
  · exact ⟨h2, Or.inl h1⟩
  · have := (hc.after _ (hS _ h1.mem.1) _ (hS _ h1.mem.2)).1 h2
    exact ⟨this.1, Or.inr this.2⟩

theorem RelOf.of_weak {c : α → α → Bool × Bool} {S : Set α} (hc : IsCausalOrder c S) {pos : EId → α} {L : List EId}
    (hnd : L.Nodup) (hS : ∀ e ∈ L, pos e ∈ S) {a b : EId} (ha : a ∈ L) (hb : b ∈ L) (hab : a ≠ b)
    (h1 : (c (pos a) (pos b)).1 = true) (h2 : Before L a b ∨ (c (pos b) (pos a)).1 = false) : RelOf c pos L a b := by
  rcases before_total hnd ha hb hab with h3 | h3
  · exact Or.inl ⟨h3, h1⟩
  · rcases h2 with h2 | h2
    · exact absurd h3 (before_asymm hnd h2)
    · exact Or.inr ⟨h3, (hc.after _ (hS _ hb) _ (hS _ ha)).2 ⟨h1, h2⟩⟩

theorem RelOf.strictOrd {c : α → α → Bool × Bool} {S : Set α} (hc : IsCausalOrder c S) {pos : EId → α} {L : List EId}
    (hnd : L.Nodup) (hS : ∀ e ∈ L, pos e ∈ S) : StrictOrd (RelOf c pos L) := by
  have hirr : ∀ a, ¬ RelOf c pos L a a := by
    rintro a (⟨h1, -⟩ | ⟨h1, -⟩) <;> exact before_irrefl hnd a h1
  refine ⟨hirr, fun x y z hxy hyz => ?_⟩
  have mem : ∀ {p q}, RelOf c pos L p q → p ∈ L ∧ q ∈ L := by
    rintro p q (⟨h1, -⟩ | ⟨h1, -⟩)
    · exact h1.mem
    · exact h1.mem.symm
  obtain ⟨mx, my⟩ := mem hxy
  obtain ⟨-, mz⟩ := mem hyz
  obtain ⟨w1, s1⟩ := hxy.weak hc hS
  obtain ⟨w2, s2⟩ := hyz.weak hc hS
  have hxz : x ≠ z := by
    rintro rfl
    rcases s1 with s1 | s1
    · rcases s2 with s2 | s2
      · exact before_asymm hnd s1 s2
      · rw [w1] at s2; simp at s2
    · rw [w2] at s1; simp at s1
  refine RelOf.of_weak hc hnd hS mx mz hxz (hc.trans _ (hS _ mx) _ (hS _ my) _ (hS _ mz) w1 w2) ?_
  by_cases hzx : (c (pos z) (pos x)).1 = true
  · left
    have a1 : (c (pos y) (pos x)).1 = true := hc.trans _ (hS _ my) _ (hS _ mz) _ (hS _ mx) w2 hzx
    have a2 : (c (pos z) (pos y)).1 = true := hc.trans _ (hS _ mz) _ (hS _ mx) _ (hS _ my) hzx w1
    have b1 : Before L x y := s1.resolve_right (by rw [a1]; simp)
    have b2 : Before L y z := s2.resolve_right (by rw [a2]; simp)
    exact before_trans hnd b1 b2
  · right; simpa using hzx

/-- **C42, causal orders.** If the causality function describes a causal order on the coordinates, `relate` succeeds, the new state is
consistent, `<` on the causet is the relation reported by the causality function, all other events are unaffected, and the link memory is
exact (with `link=True` for all events of the causet; with `link=False` they have none). -/
theorem C42_causal_order (c : α → α → Bool × Bool) (S : Set α) (hc : IsCausalOrder c S) (it : Iter) (C : Finset EId) (link : Bool)
    (w : World α) (v : w.heap.Valid) (lx : w.heap.LinksExact) (hex : ∀ e ∈ C, w.heap.Exists e) (hcl : Closed w.heap.Lt C)
    (pos : EId → α) (hpos : ∀ e ∈ C, w.crd e = some (pos e)) (hS : ∀ e ∈ C, pos e ∈ S) :
    ∃ w', relate c it C link w = (.ok (), w') ∧ w'.crd = w.crd ∧ w'.heap.next = w.heap.next ∧ w'.heap.label = w.heap.label ∧
      w'.heap.Valid ∧ w'.heap.LinksExact ∧ Closed w'.heap.Lt C ∧ (∀ e ∈ C, w'.heap.hasBeenLinked e = link) ∧
      (∃ L : List EId, L.Nodup ∧ (∀ e, e ∈ L ↔ e ∈ C) ∧ ∀ a ∈ C, ∀ b ∈ C, w'.heap.Lt a b ↔ RelOf c pos L a b) ∧
      (∀ a b, a ∉ C ∨ b ∉ C → (w'.heap.Lt a b ↔ w.heap.Lt a b)) := by
  obtain ⟨h1, e1, e2, e3, e4, e5, e6, e7⟩ := relate_loops c it C w pos hpos
  set L := it.ord [221] C with hL
  have hnd : L.Nodup := it.nodup _ _
  have memL : ∀ e, e ∈ L ↔ e ∈ C := fun e => it.mem _ _ _
  have hso := RelOf.strictOrd hc hnd (pos := pos) (fun e he => hS e ((memL e).1 he))
  have hLt : ∀ a b, h1.Lt a b ↔ (b ∉ C ∧ w.heap.Lt a b) ∨ RelOf c pos L a b := by
    intro a b
    have : h1.Lt a b ↔ a ∈ h1.prec b := by unfold Heap.Lt Heap.lt; simp
    rw [this, e6]
    have : w.heap.Lt a b ↔ a ∈ w.heap.prec b := by unfold Heap.Lt Heap.lt; simp
    rw [this]
  have out : ∀ a b, w.heap.Lt a b → (a ∈ C ↔ b ∈ C) := fun a b hab =>
    ⟨fun ha => hcl a ha b (Or.inl hab), fun hb => hcl b hb a (Or.inr hab)⟩
  have v1 : h1.Valid := by
    refine ⟨⟨fun a ha => ?_, fun a b d hab hbd => ?_⟩, fun a b => ?_, fun a b => ?_, fun a b hab => ?_⟩
    · rcases (hLt a a).1 ha with h2 | h2
      · exact v.irrefl a h2.2
      · exact hso.irrefl a h2
    · rw [hLt] at hab hbd ⊢
      rcases hab with ⟨h2, h3⟩ | h2 <;> rcases hbd with ⟨h4, h5⟩ | h4
      · exact Or.inl ⟨h4, v.trans h3 h5⟩
      · exact absurd h4.mem.1 h2
      · exact absurd ((out b d h5).1 h2.mem.2) h4
      · exact Or.inr (hso.trans _ _ _ h2 h4)
    · unfold Heap.past Heap.Lt Heap.lt; simp
    · rw [hLt]
      show b ∈ h1.succ a ↔ _
      rw [e7]
      refine or_congr_left ?_
      have hf : b ∈ w.heap.succ a ↔ w.heap.Lt a b := v.future_eq a b
      rw [hf]
      constructor
      · rintro ⟨h2, h3⟩; exact ⟨fun hb => h2 ((out a b h3).2 hb), h3⟩
      · rintro ⟨h2, h3⟩; exact ⟨fun ha => h2 ((out a b h3).1 ha), h3⟩
    · unfold Heap.Exists
      rw [e2]
      rcases (hLt a b).1 hab with h2 | h2
      · exact v.exists_of_lt a b h2.2
      · exact ⟨hex a h2.mem.1, hex b h2.mem.2⟩
  have hcl1 : Closed h1.Lt C := by
    rintro a ha b (hab | hab)
    · rcases (hLt a b).1 hab with h2 | h2
      · exact (out a b h2.2).1 ha
      · exact h2.mem.2
    · rcases (hLt b a).1 hab with h2 | h2
      · exact (out b a h2.2).2 ha
      · exact h2.mem.1
  have hout : ∀ a b, a ∉ C ∨ b ∉ C → (h1.Lt a b ↔ w.heap.Lt a b) := by
    intro a b hab
    rw [hLt]
    have hn : ¬ RelOf c pos L a b := fun hr => by
      rcases hab with h2 | h2
      · exact h2 hr.mem.1
      · exact h2 hr.mem.2
    constructor
    · rintro (h2 | h2)
      · exact h2.2
      · exact absurd h2 hn
    · intro h2
      refine Or.inl ⟨?_, h2⟩
      rcases hab with h3 | h3
      · exact fun hb => h3 ((out a b h2).2 hb)
      · exact h3
  -- links between events outside are unchanged
  have hcov : ∀ e, e ∉ C → ∀ x, (Covers h1.Lt x e ↔ Covers w.heap.Lt x e) ∧ (Covers h1.Lt e x ↔ Covers w.heap.Lt e x) := by
    intro e he x
    have a1 : ∀ y, h1.Lt y e ↔ w.heap.Lt y e := fun y => hout y e (Or.inr he)
    have a2 : ∀ y, h1.Lt e y ↔ w.heap.Lt e y := fun y => hout e y (Or.inl he)
    unfold Covers
    constructor
    · rw [a1]
      refine and_congr_right fun hx => forall_congr' fun y => ?_
      rw [a1]
      refine not_congr (and_congr_left fun hy => ?_)
      exact hout x y (Or.inr fun hyC => he ((out y e hy).1 hyC))
    · rw [a2]
      refine and_congr_right fun hx => forall_congr' fun y => ?_
      rw [a2]
      refine not_congr (and_congr_right fun hy => ?_)
      exact hout y x (Or.inl fun hyC => he ((out e y hy).2 hyC))
  have hdata : ∀ h2 : Heap, h1.SameOrder h2 → h2.next = w.heap.next ∧ h2.label = w.heap.label ∧ h2.Valid ∧ Closed h2.Lt C ∧
      (∃ L : List EId, L.Nodup ∧ (∀ e, e ∈ L ↔ e ∈ C) ∧ ∀ a ∈ C, ∀ b ∈ C, h2.Lt a b ↔ RelOf c pos L a b) ∧
      (∀ a b, a ∉ C ∨ b ∉ C → (h2.Lt a b ↔ w.heap.Lt a b)) := by
    intro h2 so
    refine ⟨so.next.trans e2, so.label.trans e3, so.valid v1, by rw [so.Lt]; exact hcl1,
      ⟨L, hnd, memL, fun a ha b hb => ?_⟩, fun a b hab => ?_⟩
    · rw [so.Lt, hLt]; simp [hb]
    · rw [so.Lt]; exact hout a b hab
  unfold relate
  rw [e1]
  dsimp only
  cases link with
  | true =>
    simp only [if_true]
    obtain ⟨h2, g1, so, g2, g3⟩ := C38_link it v1 C hcl1
    rw [g1]
    obtain ⟨d1, d2, d3, d4, d5, d6⟩ := hdata h2 so
    refine ⟨_, rfl, rfl, d1, d2, d3, ?_, d4, ?_, d5, d6⟩
    · refine ⟨fun e s hs x => ?_, fun e s hs x => ?_, fun e => ?_⟩ <;> by_cases he : e ∈ C
      · obtain ⟨p, t, h3, h4, h5, h6⟩ := g2 e he
        dsimp only at hs
        rw [h3] at hs; simp only [Option.some.injEq] at hs; subst hs; exact h5 x
      · dsimp only at hs
        rw [(g3 e he).1, e4] at hs
        show x ∈ s ↔ Covers h2.Lt x e
        rw [so.Lt, (hcov e he x).1]; exact lx.past e s hs x
      · obtain ⟨p, t, h3, h4, h5, h6⟩ := g2 e he
        dsimp only at hs
        rw [h4] at hs; simp only [Option.some.injEq] at hs; subst hs; exact h6 x
      · dsimp only at hs
        rw [(g3 e he).2, e5] at hs
        show x ∈ s ↔ Covers h2.Lt e x
        rw [so.Lt, (hcov e he x).2]; exact lx.future e s hs x
      · obtain ⟨p, t, h3, h4, h5, h6⟩ := g2 e he
        dsimp only; rw [h3, h4]; simp
      · dsimp only
        rw [(g3 e he).1, (g3 e he).2, e4, e5]; exact lx.both e
    · intro e he
      obtain ⟨p, t, h3, h4, -⟩ := g2 e he
      unfold hasBeenLinked
      dsimp only
      rw [h3, h4]; rfl
  | false =>
    simp only [Bool.false_eq_true, if_false]
    obtain ⟨h2, g1, so, g2, g3⟩ := C38_unlink it C h1
    rw [g1]
    obtain ⟨d1, d2, d3, d4, d5, d6⟩ := hdata h2 so
    have hbl : ∀ e, h1.hasBeenLinked e = w.heap.hasBeenLinked e := fun e => by unfold hasBeenLinked; rw [e4, e5]
    have hnone : ∀ e ∈ C, h2.lprec e = none ∧ h2.lsucc e = none := by
      intro e he
      by_cases hl : h1.hasBeenLinked e = true
      · exact g2 e he hl
      · rw [(g3 e (Or.inr (by simpa using hl))).1, (g3 e (Or.inr (by simpa using hl))).2, e4, e5]
        rw [hbl] at hl
        have hb := lx.both e
        unfold hasBeenLinked at hl
        cases hp : w.heap.lprec e with
        | none => exact ⟨rfl, hb.1 hp⟩
        | some p =>
          cases hs : w.heap.lsucc e with
          | none => rw [hb.2 hs] at hp; simp at hp
          | some s => rw [hp, hs] at hl; simp at hl
    refine ⟨_, rfl, rfl, d1, d2, d3, ?_, d4, ?_, d5, d6⟩
    · refine ⟨fun e s hs x => ?_, fun e s hs x => ?_, fun e => ?_⟩ <;> by_cases he : e ∈ C
      · dsimp only at hs; rw [(hnone e he).1] at hs; simp at hs
      · dsimp only at hs
        rw [(g3 e (Or.inl he)).1, e4] at hs
        show x ∈ s ↔ Covers h2.Lt x e
        rw [so.Lt, (hcov e he x).1]; exact lx.past e s hs x
      · dsimp only at hs; rw [(hnone e he).2] at hs; simp at hs
      · dsimp only at hs
        rw [(g3 e (Or.inl he)).2, e5] at hs
        show x ∈ s ↔ Covers h2.Lt e x
        rw [so.Lt, (hcov e he x).2]; exact lx.future e s hs x
      · dsimp only; rw [(hnone e he).1, (hnone e he).2]
      · dsimp only
        rw [(g3 e (Or.inl he)).1, (g3 e (Or.inl he)).2, e4, e5]; exact lx.both e
    · intro e he
      unfold hasBeenLinked
      dsimp only
      rw [(hnone e he).1]; rfl

end Causets
