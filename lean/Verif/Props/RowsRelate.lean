import Verif.Props.Rows
import Verif.Props.Flat
import Verif.Props.CreateOrder

/-!
# C117: coordinate rows of any length — `relate`, `create` and `EmbeddedCauset(...)`
-/

namespace Causets

open Heap
open Function (update)

variable {α : Type}

/-! ## Vocabulary -/

/-- the answer of a causality function that can raise, if it does not raise -/
def answer (c : α → α → Except Err (Bool × Bool)) (x y : α) : Bool × Bool := match c x y with
  | .ok r => r
  | .error _ => (false, false)

/-- the causality function reports `x` before `y`: asked in one order or in the other -/
def Reported (c : α → α → Except Err (Bool × Bool)) (x y : α) : Prop :=
  (∃ r, c x y = .ok r ∧ r.1 = true) ∨ (∃ r, c y x = .ok r ∧ r.2 = true)

/-! ## The loops -/

section
variable (c : α → α → Except Err (Bool × Bool)) (crd : EId → Option α) (pos : EId → α)

theorem relateRowE_ok (a : EId) (ha : crd a = some (pos a)) : ∀ (L : List EId) (h : Heap), (∀ e ∈ L, crd e = some (pos e)) →
    (∀ b ∈ L, ∃ r, c (pos a) (pos b) = .ok r) → relateRowE c crd a L h = relateRow (answer c) crd a L h
  | [], _, _, _ => rfl
  | b :: L, h, hL, hc => by
    unfold relateRowE relateRow
    rw [ha, hL b (by simp)]
    obtain ⟨r, hr⟩ := hc b (by simp)
    have : answer c (pos a) (pos b) = r := by unfold answer; rw [hr]
    dsimp only
    rw [hr, this]
    exact relateRowE_ok a ha L _ (fun e he => hL e (by simp [he])) (fun e he => hc e (by simp [he]))

theorem relateRowsE_ok : ∀ (L : List EId) (h : Heap), (∀ e ∈ L, crd e = some (pos e)) →
    L.Pairwise (fun a b => ∃ r, c (pos a) (pos b) = .ok r) → relateRowsE c crd L h = relateRows (answer c) crd L h
  | [], _, _, _ => rfl
  | a :: L, h, hL, hc => by
    obtain ⟨h1, h2⟩ := List.pairwise_cons.1 hc
    unfold relateRowsE relateRows
    rw [relateRowE_ok c crd pos a (hL a (by simp)) L h (fun e he => hL e (by simp [he])) h1]
    rcases relateRow (answer c) crd a L h with ⟨r | r, h1⟩
    · rfl
    · exact relateRowsE_ok L _ (fun e he => hL e (by simp [he])) h2

/-- what the loops do to the state, whether they raise or not -/
structure LoopDone (S : Finset EId) (h h' : Heap) : Prop where
  next : h'.next = h.next
  label : h'.label = h.label
  lprec : h'.lprec = h.lprec
  lsucc : h'.lsucc = h.lsucc
  prec : ∀ x y, x ∈ h'.prec y → x ∈ h.prec y ∨ (x ∈ S ∧ y ∈ S ∧ x ≠ y ∧ Reported c (pos x) (pos y))
  succ : ∀ x y, y ∈ h'.succ x → y ∈ h.succ x ∨ (x ∈ S ∧ y ∈ S ∧ x ≠ y ∧ Reported c (pos x) (pos y))
  prec_mono : ∀ x y, x ∈ h.prec y → x ∈ h'.prec y
  succ_mono : ∀ x y, y ∈ h.succ x → y ∈ h'.succ x

variable {c pos}

theorem LoopDone.refl (S : Finset EId) (h : Heap) : LoopDone c pos S h h :=
  ⟨rfl, rfl, rfl, rfl, fun _ _ => Or.inl, fun _ _ => Or.inl, fun _ _ => id, fun _ _ => id⟩

theorem LoopDone.trans {S : Finset EId} {h h' h'' : Heap} (a : LoopDone c pos S h h') (b : LoopDone c pos S h' h'') : LoopDone c pos S h h'' where
  next := b.next.trans a.next
  label := b.label.trans a.label
  lprec := b.lprec.trans a.lprec
  lsucc := b.lsucc.trans a.lsucc
  prec x y hx := (b.prec x y hx).elim (a.prec x y) Or.inr
  succ x y hx := (b.succ x y hx).elim (a.succ x y) Or.inr
  prec_mono x y hx := b.prec_mono x y (a.prec_mono x y hx)
  succ_mono x y hx := b.succ_mono x y (a.succ_mono x y hx)

theorem LoopDone.pair {S : Finset EId} {a b : EId} (ha : a ∈ S) (hb : b ∈ S) (hab : a ≠ b) {r : Bool × Bool} (hr : c (pos a) (pos b) = .ok r) (h : Heap) :
    LoopDone c pos S h (h.relatePair r a b) := by
  obtain ⟨k1, k2, k3, k4, k5, k6⟩ := relatePair_mem r a b hab h
  refine ⟨k1, k2, k3, k4, fun x y hx => ?_, fun x y hx => ?_, fun x y hx => (k5 x y).2 (Or.inl hx), fun x y hx => (k6 x y).2 (Or.inl hx)⟩
  · rcases (k5 x y).1 hx with h1 | ⟨rfl, rfl, h1⟩ | ⟨rfl, rfl, h1⟩
    · exact Or.inl h1
    · exact Or.inr ⟨ha, hb, hab, Or.inl ⟨r, hr, h1⟩⟩
    · exact Or.inr ⟨hb, ha, hab.symm, Or.inr ⟨r, hr, h1⟩⟩
  · rcases (k6 x y).1 hx with h1 | ⟨rfl, rfl, h1⟩ | ⟨rfl, rfl, h1⟩
    · exact Or.inl h1
    · exact Or.inr ⟨ha, hb, hab, Or.inl ⟨r, hr, h1⟩⟩
    · exact Or.inr ⟨hb, ha, hab.symm, Or.inr ⟨r, hr, h1⟩⟩

theorem relateRowE_spec {S : Finset EId} {a : EId} (haS : a ∈ S) (ha : crd a = some (pos a)) : ∀ (L : List EId) (h : Heap),
    (∀ e ∈ L, e ∈ S ∧ crd e = some (pos e)) → a ∉ L → LoopDone c pos S h (relateRowE c crd a L h).2 ∧
      ((relateRowE c crd a L h).1 = .ok () ∧ (∀ b ∈ L, ∃ r, c (pos a) (pos b) = .ok r) ∨
        ∃ b ∈ L, ∃ e, c (pos a) (pos b) = .error e ∧ (relateRowE c crd a L h).1 = .error e)
  | [], h, _, _ => ⟨LoopDone.refl _ _, Or.inl ⟨rfl, by simp⟩⟩
  | b :: L, h, hL, haL => by
    unfold relateRowE
    rw [ha, (hL b (by simp)).2]
    dsimp only
    cases hr : c (pos a) (pos b) with
    | error e => exact ⟨LoopDone.refl _ _, Or.inr ⟨b, by simp, e, hr, rfl⟩⟩
    | ok r =>
      dsimp only
      have hab : a ≠ b := fun hh => haL (by simp [hh])
      obtain ⟨i1, i2⟩ := relateRowE_spec haS ha L (h.relatePair r a b) (fun e he => hL e (by simp [he])) (fun hh => haL (by simp [hh]))
      refine ⟨(LoopDone.pair haS (hL b (by simp)).1 hab hr h).trans i1, ?_⟩
      rcases i2 with ⟨j1, j2⟩ | ⟨b', hb', e, j1, j2⟩
      · refine Or.inl ⟨j1, fun b' hb' => ?_⟩
        rcases List.mem_cons.1 hb' with rfl | hb'
        · exact ⟨r, hr⟩
        · exact j2 b' hb'
      · exact Or.inr ⟨b', by simp [hb'], e, j1, j2⟩

theorem relateRowsE_spec {S : Finset EId} : ∀ (L : List EId) (h : Heap), L.Nodup → (∀ e ∈ L, e ∈ S ∧ crd e = some (pos e)) →
    LoopDone c pos S h (relateRowsE c crd L h).2 ∧
      ((relateRowsE c crd L h).1 = .ok () ∧ L.Pairwise (fun a b => ∃ r, c (pos a) (pos b) = .ok r) ∨
        ∃ a ∈ L, ∃ b ∈ L, a ≠ b ∧ ∃ e, c (pos a) (pos b) = .error e ∧ (relateRowsE c crd L h).1 = .error e)
  | [], h, _, _ => ⟨LoopDone.refl _ _, Or.inl ⟨rfl, List.Pairwise.nil⟩⟩
  | a :: L, h, hnd, hL => by
    obtain ⟨haL, hnd'⟩ := List.nodup_cons.1 hnd
    obtain ⟨i1, i2⟩ := relateRowE_spec crd (c := c) (pos := pos) (hL a (by simp)).1 (hL a (by simp)).2 L h (fun e he => hL e (by simp [he])) haL
    unfold relateRowsE
    rcases hq : relateRowE c crd a L h with ⟨r1, h1⟩
    rw [hq] at i1 i2
    dsimp only at i1 i2
    rcases i2 with ⟨j1, j2⟩ | ⟨b, hb, e, j1, j2⟩
    · subst j1
      dsimp only
      obtain ⟨k1, k2⟩ := relateRowsE_spec L h1 hnd' (fun e he => hL e (by simp [he]))
      refine ⟨i1.trans k1, ?_⟩
      rcases k2 with ⟨m1, m2⟩ | ⟨a', ha', b', hb', hab, e, m1, m2⟩
      · exact Or.inl ⟨m1, List.pairwise_cons.2 ⟨j2, m2⟩⟩
      · exact Or.inr ⟨a', by simp [ha'], b', by simp [hb'], hab, e, m1, m2⟩
    · subst j2
      dsimp only
      exact ⟨i1, Or.inr ⟨a, by simp, b, by simp [hb], fun hh => haL (hh ▸ hb), e, j1, rfl⟩⟩

end

theorem pairwise_of_forall {R : EId → EId → Prop} : ∀ {L : List EId}, L.Nodup → (∀ a ∈ L, ∀ b ∈ L, a ≠ b → R a b) → L.Pairwise R
  | [], _, _ => List.Pairwise.nil
  | x :: L, hnd, h => by
    obtain ⟨h1, h2⟩ := List.nodup_cons.1 hnd
    exact List.pairwise_cons.2 ⟨fun b hb => h x (by simp) b (by simp [hb]) (fun hh => h1 (hh ▸ hb)),
      pairwise_of_forall h2 fun a ha b hb => h a (by simp [ha]) b (by simp [hb])⟩

/-! ## `relate` -/

/-- **C117, `relate`, no exception.** If no two events of the causet have rows that cannot be compared, `relate` does exactly what the other properties
(C42 and those that follow from it) say about the answers of the causality function. -/
theorem C117_relate_ok (c : α → α → Except Err (Bool × Bool)) (it : Iter) (C : Finset EId) (link : Bool) (w : World α) (pos : EId → α)
    (hpos : ∀ e ∈ C, w.crd e = some (pos e)) (hc : ∀ a ∈ C, ∀ b ∈ C, a ≠ b → ∃ r, c (pos a) (pos b) = .ok r) :
    relateE c it C link w = relate (answer c) it C link w := by
  unfold relateE relate
  rw [relateRowsE_ok c w.crd pos _ _ (fun e he => hpos e ((it.mem _ _ _).1 he))
    (pairwise_of_forall (it.nodup _ _) fun a ha b hb => hc a ((it.mem _ _ _).1 ha) b ((it.mem _ _ _).1 hb))]
  rcases relateRows (answer c) w.crd (it.ord [221] C) (relateClear (it.ord [218] C) w.heap) with ⟨r | r, h1⟩ <;> rfl

/-- **C117, `relate`, exceptions.** If two events of the causet have rows that cannot be compared, `relate` raises the exception of such a pair,
whatever the iteration order.  After that the previous order of the events of the causet is lost: `a < b` holds at most where the causality function
reports it (for the pairs that were compared before the exception), although the link memory of all events is still the one from before; events outside
keep their past, and labels and coordinates are unchanged. -/
theorem C117_relate_raises (c : α → α → Except Err (Bool × Bool)) (hsym : ∀ x y e, c x y = .error e → c y x = .error e) (it : Iter) (C : Finset EId)
    (link : Bool) (w : World α) (pos : EId → α) (hpos : ∀ e ∈ C, w.crd e = some (pos e))
    {a b : EId} (ha : a ∈ C) (hb : b ∈ C) (hab : a ≠ b) {e0 : Err} (he0 : c (pos a) (pos b) = .error e0) :
    (∃ a' ∈ C, ∃ b' ∈ C, a' ≠ b' ∧ ∃ e, c (pos a') (pos b') = .error e ∧ (relateE c it C link w).1 = .error e) ∧
    (∀ x, ∀ y ∈ C, (relateE c it C link w).2.heap.Lt x y → x ∈ C ∧ x ≠ y ∧ Reported c (pos x) (pos y)) ∧
    (∀ x, ∀ y ∉ C, (relateE c it C link w).2.heap.Lt x y ↔ w.heap.Lt x y) ∧
    (relateE c it C link w).2.heap.lprec = w.heap.lprec ∧ (relateE c it C link w).2.heap.lsucc = w.heap.lsucc ∧
    (relateE c it C link w).2.heap.label = w.heap.label ∧ (relateE c it C link w).2.crd = w.crd := by
  obtain ⟨k1, k2, k3, k4, k5, k6⟩ := relateClear_spec (it.ord [218] C) w.heap
  obtain ⟨i1, i2⟩ := relateRowsE_spec (c := c) (pos := pos) (S := C) w.crd (it.ord [221] C) (relateClear (it.ord [218] C) w.heap) (it.nodup _ _)
    (fun e he => ⟨(it.mem _ _ _).1 he, hpos e ((it.mem _ _ _).1 he)⟩)
  have hbad : ∃ a' ∈ it.ord [221] C, ∃ b' ∈ it.ord [221] C, a' ≠ b' ∧ ∃ e, c (pos a') (pos b') = .error e ∧
      (relateRowsE c w.crd (it.ord [221] C) (relateClear (it.ord [218] C) w.heap)).1 = .error e := by
    rcases i2 with ⟨-, j2⟩ | h
    · exfalso
      have hs : ∀ x y, (∃ r, c (pos x) (pos y) = .ok r) → ∃ r, c (pos y) (pos x) = .ok r := by
        rintro x y ⟨r, hr⟩
        cases h : c (pos y) (pos x) with
        | ok r' => exact ⟨r', rfl⟩
        | error e => have := hsym _ _ _ h; rw [hr] at this; cases this
      haveI : Std.Symm (fun a b : EId => ∃ r, c (pos a) (pos b) = Except.ok r) := ⟨hs⟩
      obtain ⟨r, hr⟩ := j2.forall ((it.mem _ _ _).2 ha) ((it.mem _ _ _).2 hb) hab
      rw [he0] at hr; cases hr
    · exact h
  obtain ⟨a', ha', b', hb', hab', e, he, hres⟩ := hbad
  rcases hq : relateRowsE c w.crd (it.ord [221] C) (relateClear (it.ord [218] C) w.heap) with ⟨r1, h1⟩
  rw [hq] at i1 hres
  dsimp only at i1 hres
  subst hres
  have hE : relateE c it C link w = (.error e, { w with heap := h1 }) := by
    unfold relateE
    rw [hq]
  rw [hE]
  dsimp only
  refine ⟨⟨a', (it.mem _ _ _).1 ha', b', (it.mem _ _ _).1 hb', hab', e, he, rfl⟩, fun x y hy hlt => ?_, fun x y hy => ?_, i1.lprec.trans k3,
    i1.lsucc.trans k4, i1.label.trans k2, rfl⟩
  · have hx : x ∈ h1.prec y := by simpa [Heap.Lt, Heap.lt] using hlt
    rcases i1.prec x y hx with h | ⟨h2, -, h3, h4⟩
    · rw [k5, if_pos ((it.mem _ _ _).2 hy)] at h; simp at h
    · exact ⟨h2, h3, h4⟩
  · have e2 : ∀ (g : Heap), g.Lt x y ↔ x ∈ g.prec y := fun g => by simp [Heap.Lt, Heap.lt]
    rw [e2, e2]
    have e3 : (relateClear (it.ord [218] C) w.heap).prec y = w.heap.prec y := by rw [k5, if_neg (fun hh => hy ((it.mem _ _ _).1 hh))]
    constructor
    · intro hx
      rcases i1.prec x y hx with h | ⟨-, h, -, -⟩
      · rwa [e3] at h
      · exact absurd h hy
    · intro hx
      exact i1.prec_mono x y (by rwa [e3])

/-! ## `create` and `EmbeddedCauset(...)` -/

theorem createE_eq (c : α → α → Except Err (Bool × Bool)) (it : Iter) (C : Finset EId) (coords : List α) (fmt : Option (ℕ → String)) (w : World α)
    (hC : ∀ e ∈ C, e < w.heap.next) (pos : EId → α) (hpos : ∀ e ∈ C, w.crd e = some (pos e))
    (hnew : ∀ i (hi : i < coords.length), pos (w.heap.next + i) = coords[i])
    (hc : ∀ a ∈ C ∪ (List.range' w.heap.next coords.length).toFinset, ∀ b ∈ C ∪ (List.range' w.heap.next coords.length).toFinset, a ≠ b →
      ∃ r, c (pos a) (pos b) = .ok r) :
    createE c it C coords fmt true w = create (answer c) it C coords fmt true w := by
  obtain ⟨h1, h2, h3, h4⟩ := createEvents_spec it fmt coords (C.card + 1) w
  unfold createE create
  dsimp only
  rw [h1, if_pos rfl, if_pos rfl, C117_relate_ok c it _ true _ pos ?_ hc]
  intro e he
  rcases Finset.mem_union.1 he with he | he
  · rw [h4 e (hC e he)]; exact hpos e he
  · rw [List.mem_toFinset, List.mem_range'_1] at he
    obtain ⟨k, hk⟩ : ∃ k, e = w.heap.next + k := ⟨e - w.heap.next, by omega⟩
    have hk' : k < coords.length := by omega
    rw [hk, h3 k hk', hnew k hk']

/-- the positions of new events -/
theorem newPos [Inhabited α] (w : World α) (coords : List α) :
    ∃ pos : EId → α, ∀ i (hi : i < coords.length), pos (w.heap.next + i) = coords[i] :=
  ⟨fun e => coords.getD (e - w.heap.next) default, fun i hi => by simp [List.getD_eq_getElem?_getD, List.getElem?_eq_getElem hi]⟩

theorem mem_new {n m a : ℕ} (h : a ∈ (∅ : Finset EId) ∪ (List.range' n m).toFinset) : ∃ k, k < m ∧ a = n + k := by
  rw [Finset.empty_union, List.mem_toFinset, List.mem_range'_1] at h
  exact ⟨a - n, by omega, by omega⟩

/-- **C117, `EmbeddedCauset(coordinates=[...])`.** Once the other arguments have passed the checks (C81), a list of rows of any lengths is accepted
exactly if no two of the rows raise an exception when they are compared: then there is one new event per row, labelled `1, 2, ...`, and its coordinates
are the row as it is.  Otherwise the exception of such a pair is raised, which is an IndexError or a ValueError. -/
theorem C117_new (eps : ℝ) (it : Iter) (sp : SpacetimeArg) (sh : ShapeArg) (rs : List Row) (dim : ℤ) (w : World Row) {M : SpacetimeObj}
    {S : CoordinateShape} {xs : Option (List Point)} (ha : embArgs sp sh (.rows rs) dim = .ok (M, S, xs)) (hM : M.Constructed) :
    ((∀ (i j : ℕ) x y, i ≠ j → rs[i]? = some x → rs[j]? = some y → ∃ r, M.causalityRows eps x y = .ok r) →
      ∃ (ids : List EId) (w' : World Row), embInitRows eps it sp sh (.rows rs) dim w = (.ok ⟨M, S, ids.toFinset⟩, w') ∧ ids.length = rs.length ∧
        ids.Nodup ∧ (∀ e ∈ ids, ¬ w.heap.Exists e ∧ w'.heap.Exists e) ∧
        (∀ (i : ℕ) e, ids[i]? = some e → w'.heap.label e = some (.int ((i : ℕ) + 1)) ∧ w'.crd e = rs[i]?) ∧
        (∀ e, w.heap.Exists e → w'.heap.Exists e ∧ w'.heap.label e = w.heap.label e ∧ w'.crd e = w.crd e)) ∧
    (∀ (i j : ℕ) x y e0, i ≠ j → rs[i]? = some x → rs[j]? = some y → M.causalityRows eps x y = .error e0 →
      ∃ e, (embInitRows eps it sp sh (.rows rs) dim w).1 = .error e ∧ (e = .indexError ∨ e = .valueError) ∧
        ∃ (i j : ℕ) (x y : Row), i ≠ j ∧ rs[i]? = some x ∧ rs[j]? = some y ∧ M.causalityRows eps x y = .error e) := by
  obtain ⟨pos, hnew⟩ := newPos w rs
  constructor
  · intro hok
    have hE := createE_eq (M.causalityRows eps) it ∅ rs none w (by simp) pos (by simp) hnew (by
      intro a ha b hb hab
      obtain ⟨k, hk, rfl⟩ := mem_new ha
      obtain ⟨l, hl, rfl⟩ := mem_new hb
      rw [hnew k hk, hnew l hl]
      exact hok k l _ _ (by rintro rfl; exact hab rfl) (List.getElem?_eq_getElem hk) (List.getElem?_eq_getElem hl))
    have hk := C46_create_ok (answer (M.causalityRows eps)) it ∅ rs none true w (by simp) (by simp)
    obtain ⟨ids, i1, i2, i3, i4, i5, i6, i7⟩ := C46_create (answer (M.causalityRows eps)) it ∅ rs none true w (by simp) (by simp)
    rw [Finset.empty_union] at i4
    refine ⟨ids, (create (answer (M.causalityRows eps)) it ∅ rs none true w).2.2.2, ?_, i1, i2, i5, fun i e hi => ?_, i7⟩
    · unfold embInitRows
      rw [ha]
      simp only [CoordsArg.givenRows]
      rw [hE, hk]
      dsimp only
      rw [i4]
    · obtain ⟨j1, j2⟩ := i6 i e hi
      refine ⟨?_, j2⟩
      rw [j1]
      simp [mkLabel, add_comm]
  · intro i j x y e0 hij hi hj he0
    obtain ⟨h1, h2, h3, h4⟩ := createEvents_spec it none rs ((∅ : Finset EId).card + 1) w
    obtain ⟨hi', rfl⟩ := List.getElem?_eq_some_iff.1 hi
    obtain ⟨hj', rfl⟩ := List.getElem?_eq_some_iff.1 hj
    set C' : Finset EId := ∅ ∪ (List.range' w.heap.next rs.length).toFinset with hC'
    have mem : ∀ k, k < rs.length → w.heap.next + k ∈ C' := by
      intro k hk
      rw [hC', Finset.empty_union, List.mem_toFinset, List.mem_range'_1]
      omega
    have hsome : ∀ e ∈ C', (createEvents it none ((∅ : Finset EId).card + 1) rs w).2.crd e = some (pos e) := by
      intro e he
      obtain ⟨k, hk, rfl⟩ := mem_new he
      rw [h3 k hk, hnew k hk]
    obtain ⟨⟨a', ha', b', hb', hab, e, he, hres⟩, -⟩ := C117_relate_raises (M.causalityRows eps) (fun x y e => rows_error_symm eps M hM x y e) it C' true
      (createEvents it none ((∅ : Finset EId).card + 1) rs w).2 pos hsome (mem i hi') (mem j hj') (by omega) (e0 := e0) (by rw [hnew i hi', hnew j hj']; exact he0)
    obtain ⟨k, hk, rfl⟩ := mem_new ha'
    obtain ⟨l, hl, rfl⟩ := mem_new hb'
    rw [hnew k hk, hnew l hl] at he
    refine ⟨e, ?_, (C117_errors eps M hM _ _).2.2 e he, k, l, _, _, by rintro rfl; exact hab rfl, List.getElem?_eq_getElem hk, List.getElem?_eq_getElem hl, he⟩
    unfold embInitRows
    rw [ha]
    simp only [CoordsArg.givenRows]
    have hcr : (createE (M.causalityRows eps) it ∅ rs none true w).2.2.1 = .error e := by
      unfold createE
      dsimp only
      rw [h1, if_pos rfl]
      exact hres
    rw [hcr]

/-! ## What the documentation promises and the code does not -/

/-- the arguments `spacetime=M, coordinates=rs` pass the checks whatever the rows are -/
theorem embArgs_obj (M : SpacetimeObj) (hM : M.Constructed) (rs : List Row) :
    ∃ S xs, embArgs (.obj M) .none (.rows rs) (-1) = .ok (M, S, xs) := by
  obtain ⟨D, q1, q2, q3⟩ := defaultShape_spec M hM.dim_pos
  refine ⟨D, some (rs.map rowPoint), ?_⟩
  unfold embArgs initDim initSpacetime initShape initCoords
  simp [bind, Except.bind, q1]

theorem rows_order_flat (M : FlatSpacetime) (h3 : 3 ≤ M.dim) (hp : M.isPeriodic = false) (n : ℕ) (hn : 3 ≤ n) (x y : Row) (hx : x.length = n)
    (hy : y.length = n) :
    SpacetimeObj.causalityRows 0 (.flat M) x y = .ok ((⟨n, false, none⟩ : FlatSpacetime).causality 0 (rowPoint x) (rowPoint y)) := by
  rw [C117_flat_values 0 M h3 hp x y (by rintro rfl; simp at hx; omega) (by rintro rfl; simp at hy; omega) (Or.inl (by omega))]
  have e1 : commonLength x y = n := by unfold commonLength; rw [if_neg (by omega), hx]
  have e2 : ∀ z : Row, z.length = n → stretch n z = z := fun z hz => by unfold stretch; rw [if_neg (by omega)]
  rw [e1, e2 x hx, e2 y hy]
  simp [FlatSpacetime.causality, show n ≠ 1 by omega, show n ≠ 2 by omega]

/-- **C117, refuted: "a ValueError is raised if the dimensions are not compatible".** In Minkowski spacetime of any dimension `d ≥ 3`, rows with any
number `n ≥ 3` of entries are accepted, for `n ≠ d` too, and the events are then ordered as in Minkowski spacetime of dimension `n`. -/
theorem C117_dimension_refuted (it : Iter) (M : FlatSpacetime) (hM : (SpacetimeObj.flat M).Constructed) (h3 : 3 ≤ M.dim) (hp : M.isPeriodic = false)
    (n : ℕ) (hn : 3 ≤ n) (rs : List Row) (hlen : ∀ r ∈ rs, r.length = n) (hnd : rs.Nodup) (w : World Row) (v : w.heap.Valid) (lx : w.heap.LinksExact) :
    ∃ (S : CoordinateShape) (ids : List EId) (w' : World Row),
      embInitRows 0 it (.obj (.flat M)) .none (.rows rs) (-1) w = (.ok ⟨.flat M, S, ids.toFinset⟩, w') ∧ ids.length = rs.length ∧
      (∀ (i : ℕ) e, ids[i]? = some e → w'.crd e = rs[i]?) ∧
      ∀ (i j : ℕ) a b x y, ids[i]? = some a → ids[j]? = some b → rs[i]? = some x → rs[j]? = some y →
        (w'.heap.Lt a b ↔ i ≠ j ∧ MinkLe n (rowPoint x) (rowPoint y)) := by
  obtain ⟨S, xs, ha⟩ := embArgs_obj (.flat M) hM rs
  set c := SpacetimeObj.causalityRows 0 (.flat M) with hc
  let N : FlatSpacetime := ⟨n, false, none⟩
  have hval : ∀ x y : Row, x.length = n → y.length = n → c x y = .ok (N.causality 0 (rowPoint x) (rowPoint y)) :=
    fun x y hx hy => rows_order_flat M h3 hp n hn x y hx hy
  have hans : ∀ x y : Row, x.length = n → y.length = n → answer c x y = N.causality 0 (rowPoint x) (rowPoint y) := by
    intro x y hx hy; unfold answer; rw [hval x y hx hy]
  have hmink : ∀ x y : Row, x.length = n → y.length = n → ((answer c x y).1 = true ↔ MinkLe n (rowPoint x) (rowPoint y)) := by
    intro x y hx hy
    rw [hans x y hx hy]
    exact C43_minkowski N rfl _ _ (by show 1 ≤ n; omega)
  have hrow : ∀ i (x : Row), rs[i]? = some x → x.length = n := fun i x hx => hlen x (List.mem_of_getElem? hx)
  obtain ⟨ids, w', e1, e2, e3, e4, e5, -⟩ := (C117_new 0 it (.obj (.flat M)) .none rs (-1) w ha hM).1
    (fun i j x y _ hx hy => ⟨_, hval x y (hrow i x hx) (hrow j y hy)⟩)
  refine ⟨S, ids, w', e1, e2, fun i e hi => (e5 i e hi).2, ?_⟩
  have hco : IsCausalOrder (answer c) {x : Row | x.length = n} := by
    have hN := C43_causal_order N (by show 1 ≤ n; omega) Set.univ (fun x _ y _ i _ _ h3 => absurd h3 (by simp [N, FlatSpacetime.periods]))
    refine ⟨fun x hx y hy z hz => ?_, fun x hx y hy => ?_⟩
    · rw [hans x y hx hy, hans y z hy hz, hans x z hx hz]
      exact hN.trans _ trivial _ trivial _ trivial
    · rw [hans x y hx hy, hans y x hy hx]
      exact hN.after _ trivial _ trivial
  obtain ⟨-, -, -, -, -, -, -, k8, -⟩ := C42_create (answer c) {x : Row | x.length = n} hco it ∅ rs none w v lx (by simp) (by intro a ha; simp at ha) (by simp)
    (fun x hx => hlen x hx)
  obtain ⟨pos, hnew⟩ := newPos w rs
  have hE := createE_eq c it ∅ rs none w (by simp) pos (by simp) hnew (by
    intro a ha b hb hab
    obtain ⟨k, hk, rfl⟩ := mem_new ha
    obtain ⟨l, hl, rfl⟩ := mem_new hb
    rw [hnew k hk, hnew l hl]
    exact ⟨_, hval _ _ (hlen _ (List.getElem_mem _)) (hlen _ (List.getElem_mem _))⟩)
  have hok := C46_create_ok (answer c) it ∅ rs none true w (by simp) (by simp)
  have e1' : embInitRows 0 it (.obj (.flat M)) .none (.rows rs) (-1) w =
      (.ok ⟨.flat M, S, (create (answer c) it ∅ rs none true w).1⟩, (create (answer c) it ∅ rs none true w).2.2.2) := by
    unfold embInitRows
    rw [ha]
    simp only [CoordsArg.givenRows]
    rw [← hc, hE, hok]
  rw [e1'] at e1
  have hw : (create (answer c) it ∅ rs none true w).2.2.2 = w' := (Prod.mk.inj e1).2
  have hids : (create (answer c) it ∅ rs none true w).1 = ids.toFinset := by
    have := Except.ok.inj (Prod.mk.inj e1).1
    exact (EmbObj.mk.inj this).2.2
  rw [hw, hids] at k8
  have mem : ∀ i e, ids[i]? = some e → e ∈ ids.toFinset := fun i e he => List.mem_toFinset.2 (List.mem_of_getElem? he)
  intro i j a b x y hi hj hx hy
  rw [k8 ?_ a (mem i a hi) b (mem j b hj) x y ((e5 i a hi).2.trans hx) ((e5 j b hj).2.trans hy), hmink x y (hrow i x hx) (hrow j y hy)]
  · have : a ≠ b ↔ i ≠ j := by
      constructor
      · rintro h rfl; rw [hi] at hj; exact h (Option.some.inj hj)
      · rintro h rfl
        obtain ⟨hi', h1⟩ := List.getElem?_eq_some_iff.1 hi
        obtain ⟨hj', h2⟩ := List.getElem?_eq_some_iff.1 hj
        exact h ((List.Nodup.getElem_inj_iff e3).1 (h1.trans h2.symm))
    rw [this]
  · intro a ha b hb x y hax hby hab
    obtain ⟨i, hi⟩ := List.getElem?_of_mem (List.mem_toFinset.1 ha)
    obtain ⟨j, hj⟩ := List.getElem?_of_mem (List.mem_toFinset.1 hb)
    have hx := (e5 i a hi).2.symm.trans hax
    have hy := (e5 j b hj).2.symm.trans hby
    rw [hmink x y (hrow i x hx) (hrow j y hy), hmink y x (hrow j y hy) (hrow i x hx)]
    rintro ⟨m1, m2⟩
    have hpt := minkLe_antisymm m1 m2 (by omega)
    have hxy : x = y := by
      refine List.ext_getElem (by rw [hrow i x hx, hrow j y hy]) fun k h1 h2 => ?_
      have := hpt k (by rw [← hrow i x hx]; exact h1)
      simpa [rowPoint, List.getD_eq_getElem?_getD, List.getElem?_eq_getElem h1, List.getElem?_eq_getElem h2] using this
    subst hxy
    obtain ⟨hi', h1⟩ := List.getElem?_eq_some_iff.1 hx
    obtain ⟨hj', h2⟩ := List.getElem?_eq_some_iff.1 hy
    have hij : i = j := (List.Nodup.getElem_inj_iff hnd).1 (h1.trans h2.symm)
    subst hij
    rw [hi] at hj
    exact hab (Option.some.inj hj)

end Causets
