import Verif.Props.Create
import Verif.Props.Sprinkle

/-! # C47, C71 — intensity, density and length scale of sprinkled causets (sprinkledcauset.py) -/

namespace Causets
open Heap
open Function (update)

/-! ## The number of existing events -/

theorem relateClear_next : ∀ (L : List EId) (h : Heap), (relateClear L h).next = h.next
  | [], _ => rfl
  | e :: L, h => by rw [relateClear, relateClear_next L]

theorem relatePair_next (r : Bool × Bool) (a b : EId) (h : Heap) : (h.relatePair r a b).next = h.next := by
  obtain ⟨r1, r2⟩ := r
  cases r1 <;> cases r2 <;> rfl

section
variable {α : Type} (c : α → α → Bool × Bool)

theorem relateRow_next (crd : EId → Option α) (a : EId) : ∀ (L : List EId) (h : Heap), (relateRow c crd a L h).2.next = h.next
  | [], _ => rfl
  | b :: L, h => by
    rw [relateRow]
    split
    · rw [relateRow_next crd a L, relatePair_next]
    · rfl

theorem relateRows_next (crd : EId → Option α) : ∀ (L : List EId) (h : Heap), (relateRows c crd L h).2.next = h.next
  | [], _ => rfl
  | a :: L, h => by
    have h1 := relateRow_next c crd a L h
    rw [relateRows]
    split
    · rename_i x h' e
      rw [e] at h1; exact h1
    · rename_i u h' e
      rw [e] at h1
      rw [relateRows_next crd L, h1]

/-- `relate` creates no events, whether it raises or not -/
theorem relate_next (it : Iter) (C : Finset EId) (link : Bool) (w : World α) : (relate c it C link w).2.heap.next = w.heap.next := by
  have h1 := relateRows_next c w.crd (it.ord [221] C) (relateClear (it.ord [218] C) w.heap)
  rw [relateClear_next] at h1
  unfold relate
  split
  · rename_i x h' e
    rw [e] at h1; exact h1
  · rename_i u h' e
    rw [e] at h1
    cases link
    · exact (causetUnlink_sameOrder it C h').next.trans h1
    · exact (causetLink_sameOrder it C h').next.trans h1

/-- `create` adds exactly one new event per row, whether it raises (while relating) or not -/
theorem create_card (it : Iter) (C : Finset EId) (coords : List α) (fmt : Option (ℕ → String)) (doRelate : Bool) (w : World α)
    (hex : ∀ e ∈ C, w.heap.Exists e) :
    (create c it C coords fmt doRelate w).1.card = C.card + coords.length ∧
    (create c it C coords fmt doRelate w).2.1.card = coords.length ∧ C ⊆ (create c it C coords fmt doRelate w).1 ∧
    (∀ e ∈ (create c it C coords fmt doRelate w).1, (create c it C coords fmt doRelate w).2.2.2.heap.Exists e) ∧
    w.heap.next ≤ (create c it C coords fmt doRelate w).2.2.2.heap.next := by
  obtain ⟨h1, h2, -, -⟩ := createEvents_spec it fmt coords (C.card + 1) w
  have hn : (create c it C coords fmt doRelate w).2.2.2.heap.next = w.heap.next + coords.length := by
    rw [← h2.next]
    cases doRelate
    · rfl
    · exact relate_next c it _ true _
  have hC : (create c it C coords fmt doRelate w).1 = C ∪ (List.range' w.heap.next coords.length).toFinset := by
    rw [← h1]; cases doRelate <;> rfl
  have hR : (create c it C coords fmt doRelate w).2.1 = (List.range' w.heap.next coords.length).toFinset := by
    rw [← h1]; cases doRelate <;> rfl
  have hcard : (List.range' w.heap.next coords.length).toFinset.card = coords.length := by
    rw [List.toFinset_card_of_nodup List.nodup_range', List.length_range']
  refine ⟨?_, by rw [hR, hcard], by rw [hC]; exact Finset.subset_union_left, ?_, by omega⟩
  · rw [hC, Finset.card_union_of_disjoint, hcard]
    rw [Finset.disjoint_left]
    intro e he he'
    rw [List.mem_toFinset, List.mem_range'_1] at he'
    have := hex e he
    unfold Heap.Exists at this
    omega
  · intro e he
    unfold Heap.Exists
    rw [hn]
    rw [hC, Finset.mem_union, List.mem_toFinset, List.mem_range'_1] at he
    rcases he with he | he
    · have := hex e he
      unfold Heap.Exists at this
      omega
    · omega
end

theorem sprinkleCoords_length {R : Draws} {junk : ℕ → Point} {dim : ℕ} {S : CoordinateShape} {count : ℤ} {rows : List Point}
    (h : sprinkleCoords R junk dim count S = .ok rows) : 0 ≤ count ∧ (rows.length : ℤ) = count := by
  unfold sprinkleCoords at h
  dsimp only at h
  split at h
  · exact absurd h (by simp)
  · rename_i hc
    refine ⟨by omega, ?_⟩
    split at h
    · injection h with h; subst h; simp; omega
    · split at h
      · split at h
        · injection h with h; subst h; simp; omega
        · generalize (if S.name = "ball" then 0 else 1 : ℕ) = q at h
          split at h
          · exact absurd h (by simp)
          · injection h with h; subst h; simp; omega
      · injection h with h; subst h; simp; omega

/-! ## Histories -/

/-- **Specification.** A step of a program with a sprinkled causet: one of its methods with any arguments, or anything else (which does not touch the causet's own fields, and never
destroys an event). -/
inductive SprOp
  | sprinkle (R : Draws) (junk : ℕ → Point) (dim : ℕ) (S : CoordinateShape) (count : ℤ)
  | create (coords : List Point) (fmt : Option (ℕ → String)) (doRelate : Bool)
  | add (es : Finset EId) (unlink : Bool)
  | discard (es : Finset EId) (unlink : Bool)
  | other (w : World Point)

section
variable (c : Point → Point → Bool × Bool) (it : Iter)

/-- **Specification.** One step. -/
noncomputable def SprOp.step : SprOp → SprState → Except Err Unit × SprState
  | .sprinkle R junk dim S count, s => let r := s.sprinkle c it R junk dim S count; (r.1.map fun _ => (), r.2)
  | .create coords fmt doRelate, s => let r := s.create c it coords fmt doRelate; (r.1.map fun _ => (), r.2)
  | .add es unlink, s => s.add it es unlink
  | .discard es unlink, s => s.discard it es unlink
  | .other w, s => (.ok (), { s with world := w })

/-- **Specification.** The step is possible: only existing events can be added, and no event disappears. -/
def SprOp.Possible (s : SprState) : SprOp → Prop
  | .add es _ => ∀ e ∈ es, s.world.heap.Exists e
  | .other w => s.world.heap.next ≤ w.heap.next
  | _ => True

/-- **Specification.** The states reached from `s` by histories in which no step raises. -/
inductive SprHistory (s : SprState) : SprState → Prop
  | start : SprHistory s s
  | step {s1 : SprState} (op : SprOp) (h : SprHistory s s1) (p : op.Possible s1) (ok : (op.step c it s1).1 = .ok ()) : SprHistory s (op.step c it s1).2

/-- **Specification.** The events exist and the intensity is their number -/
def SprInv (s : SprState) : Prop := (∀ e ∈ s.events, s.world.heap.Exists e) ∧ s.intensity = s.events.card

theorem superCreate_ok {coords : List Point} {fmt : Option (ℕ → String)} {doRelate : Bool} {s : SprState} {es : Finset EId}
    (hex : ∀ e ∈ s.events, s.world.heap.Exists e) (h : (s.superCreate c it coords fmt doRelate).1 = .ok es) :
    es.card = coords.length ∧ (s.superCreate c it coords fmt doRelate).2.events.card = s.events.card + coords.length := by
  obtain ⟨h1, h2, -⟩ := create_card c it s.events coords fmt doRelate s.world hex
  unfold SprState.superCreate at h ⊢
  dsimp only at h ⊢
  split at h
  · exact absurd h (by simp)
  · injection h with h
    subst h
    exact ⟨h2, h1⟩

theorem superCreate_ex (coords : List Point) (fmt : Option (ℕ → String)) (doRelate : Bool) {s : SprState}
    (hex : ∀ e ∈ s.events, s.world.heap.Exists e) :
    let s' := (s.superCreate c it coords fmt doRelate).2
    (∀ e ∈ s'.events, s'.world.heap.Exists e) ∧ s'.events.card = s.events.card + coords.length ∧ s'.intensity = s.intensity ∧
      s.world.heap.next ≤ s'.world.heap.next := by
  obtain ⟨h1, h2, h3, h4, h5⟩ := create_card c it s.events coords fmt doRelate s.world hex
  unfold SprState.superCreate
  dsimp only
  split <;> exact ⟨h4, h1, rfl, h5⟩

theorem SprOp.step_inv (op : SprOp) (s : SprState) (p : op.Possible s) (ok : (op.step c it s).1 = .ok ()) (hI : SprInv s) :
    SprInv (op.step c it s).2 := by
  obtain ⟨hex, hint⟩ := hI
  cases op with
  | sprinkle R junk dim S count =>
    simp only [SprOp.step, SprState.sprinkle] at ok ⊢
    split at ok
    · exact absurd ok (by simp [Except.map])
    · rename_i hc
      split at ok
      · exact absurd ok (by simp [Except.map])
      · rename_i rows hrows
        rw [if_neg hc]
        obtain ⟨h0, hl⟩ := sprinkleCoords_length hrows
        obtain ⟨g1, g2, g3, -⟩ := superCreate_ex c it rows none true (s := { s with intensity := s.intensity + count }) hex
        refine ⟨g1, ?_⟩
        rw [g3, g2]
        dsimp only
        push_cast
        rw [hint, ← hl]
        push_cast
        rfl
  | create coords fmt doRelate =>
    obtain ⟨g1, g2, g3, -⟩ := superCreate_ex c it coords fmt doRelate (s := s) hex
    simp only [SprOp.step, SprState.create] at ok ⊢
    split at ok
    · exact absurd ok (by simp [Except.map])
    · rename_i es hes
      refine ⟨g1, ?_⟩
      dsimp only
      rw [g3, hint]
      ring
  | add es unlink =>
    simp only [SprOp.step, SprState.add] at ok ⊢
    have hn : (causetAdd it s.events es unlink s.world.heap).2.2.next = s.world.heap.next := by
      unfold causetAdd
      cases unlink
      · rfl
      · exact (unlinkAll_sameOrder _ _).next
    split at ok
    · exact absurd ok (by simp)
    · rename_i u e
      refine ⟨?_, ?_⟩
      · intro x hx
        simp only [causetAdd, Finset.mem_union] at hx
        have : s.world.heap.Exists x := hx.elim (hex x) (p x)
        unfold Heap.Exists at this ⊢
        dsimp only
        rw [hn]; exact this
      · dsimp only
        rw [hint]; ring
  | discard es unlink =>
    simp only [SprOp.step, SprState.discard] at ok ⊢
    have hn : (causetDiscard it s.events es unlink s.world.heap).2.2.next = s.world.heap.next := by
      unfold causetDiscard
      cases unlink
      · rfl
      · exact (unlinkAll_sameOrder _ _).next
    split at ok
    · exact absurd ok (by simp)
    · rename_i u e
      by_cases h0 : s.events.card = 0
      · rw [if_pos h0] at ok
        exact absurd ok (by simp)
      · rw [if_neg h0]
        refine ⟨?_, ?_⟩
        · intro x hx
          have hx' : x ∈ s.events := by
            simp only [causetDiscard, Finset.mem_sdiff] at hx
            exact hx.1
          have := hex x hx'
          unfold Heap.Exists at this ⊢
          dsimp only
          rw [hn]; exact this
        · dsimp only
          rw [hint]
          have : (s.events.card : ℝ) ≠ 0 := by exact_mod_cast h0
          field_simp
  | other w =>
    refine ⟨?_, hint⟩
    intro e he
    exact lt_of_lt_of_le (hex e he) p

/-- **C47 (partial).** For every history of `sprinkle`, `create`, `add`, `discard` (and other changes of the program) in which no call raises, started from a causet with `Intensity == Card`: again
`Intensity == Card`.  Not proved, because false: the same after a call that raises, see `C47_refuted_add` and `C47_refuted_sprinkle`. -/
theorem C47_intensity_partial (s s' : SprState) (hI : SprInv s) (h : SprHistory c it s s') : s'.intensity = s'.events.card := by
  suffices SprInv s' from this.2
  induction h with
  | start => exact hI
  | step op h p ok ih => exact op.step_inv c it _ p ok ih

/-- **C47.** A new `SprinkledCauset(card=n)` (with `n > 0`, or with both parameters 0, when the Poisson number is 0) has `Intensity == Card == n`. -/
theorem C47_new (R : Draws) (junk : ℕ → Point) (dim : ℕ) (S : CoordinateShape) (card : ℤ) (lam : ℝ) (k : ℕ) (w : World Point) (hc : 0 < card ∨ (card = 0 ∧ lam = 0 ∧ k = 0))
    (es : Finset EId) (ok : (SprState.init c it R junk dim S card lam k w).1 = .ok es) :
    let s := (SprState.init c it R junk dim S card lam k w).2
    SprInv s ∧ (s.events.card : ℤ) = card ∧ s.intensity = card := by
  intro s
  rcases hc with hc | ⟨rfl, rfl, rfl⟩
  · have e : s = ((SprOp.sprinkle R junk dim S card).step c it { events := ∅, intensity := 0, world := w }).2 := by
      simp only [s, SprState.init, if_pos hc, SprOp.step]
    have hI : SprInv s := by
      rw [e]
      refine SprOp.step_inv c it (SprOp.sprinkle R junk dim S card) _ trivial ?_ ⟨by simp, by simp⟩
      simp only [SprState.init, if_pos hc] at ok
      simp only [SprOp.step, ok, Except.map]
    have hint : s.intensity = card := by
      rw [e]
      simp only [SprOp.step, SprState.sprinkle]
      rw [if_neg (by omega)]
      split
      · simp
      · rw [(superCreate_ex c it _ none true (s := { events := ∅, intensity := (0 : ℝ) + card, world := w }) (by simp)).2.2.1]
        simp
    refine ⟨hI, ?_, hint⟩
    have := hI.2
    rw [hint] at this
    exact_mod_cast this.symm
  · have e : s = (SprState.intensify c it R junk dim S 0 0 { events := ∅, intensity := 0, world := w }).2 := by
      simp only [s, SprState.init, lt_irrefl, if_false]
    have e2 : s = (SprState.superCreate c it [] none true { events := ∅, intensity := 0, world := w }).2 := by
      simp only [SprState.init, lt_irrefl, if_false] at ok
      rw [e]
      simp only [SprState.intensify, test, lt_irrefl, decide_false, Bool.false_eq_true, if_false, add_zero] at ok ⊢
      split at ok
      · exact absurd ok (by simp)
      · rename_i rows hrows
        have hl := (sprinkleCoords_length hrows).2
        have : rows = [] := by
          rw [← List.length_eq_zero_iff]; exact_mod_cast hl
        subst this
        simp only [hrows]
    obtain ⟨g1, g2, g3, -⟩ := superCreate_ex c it [] none true (s := { events := ∅, intensity := (0 : ℝ), world := w }) (by simp)
    rw [← e2] at g1 g2 g3
    simp only [Finset.card_empty, List.length_nil, Nat.add_zero] at g2
    refine ⟨⟨g1, ?_⟩, by rw [g2]; rfl, by rw [g3]; simp⟩
    rw [g2, g3]; simp

/-- **C47.** `intensify(λ)` with `λ < 0` raises ValueError and changes nothing; otherwise it adds `λ` to the intensity exactly once (whether it raises or not), and if it
does not raise it adds to the causet and returns as many new events as the Poisson number. -/
theorem C47_intensify (R : Draws) (junk : ℕ → Point) (dim : ℕ) (S : CoordinateShape) (lam : ℝ) (k : ℕ) (s : SprState)
    (hex : ∀ e ∈ s.events, s.world.heap.Exists e) :
    let r := s.intensify c it R junk dim S lam k
    (lam < 0 → r = (.error .valueError, s)) ∧
    (0 ≤ lam → r.2.intensity = s.intensity + lam) ∧
    (∀ es, r.1 = .ok es → es.card = k ∧ r.2.events.card = s.events.card + k ∧ s.events ∪ es = r.2.events) := by
  intro r
  have hr : r = s.intensify c it R junk dim S lam k := rfl
  unfold SprState.intensify at hr
  by_cases h : lam < 0
  · have : test (lam < 0) = true := by simpa [test] using h
    rw [this, if_pos rfl] at hr
    refine ⟨fun _ => hr, fun h' => absurd h (not_lt.2 h'), ?_⟩
    rw [hr]; intro es h'; exact absurd h' (by simp)
  · have : test (lam < 0) = false := by simpa [test] using h
    rw [this, if_neg (by simp)] at hr
    dsimp only at hr
    refine ⟨fun h' => absurd h' h, fun _ => ?_, ?_⟩
    · rw [hr]
      split
      · rfl
      · exact (superCreate_ex c it _ none true (s := { s with intensity := s.intensity + lam }) hex).2.2.1
    · intro es hes
      rw [hr] at hes ⊢
      split at hes
      · exact absurd hes (by simp)
      · rename_i rows hrows
        have hl : rows.length = k := by exact_mod_cast (sprinkleCoords_length hrows).2
        obtain ⟨g1, g2⟩ := superCreate_ok c it (s := { s with intensity := s.intensity + lam }) hex hes
        rw [hl] at g1 g2
        refine ⟨g1, g2, ?_⟩
        unfold SprState.superCreate at hes ⊢
        dsimp only at hes ⊢
        split at hes
        · exact absurd hes (by simp)
        · injection hes with hes
          rw [← hes]
          rfl

/-- **C47.** `discard` (without unlink) on an empty causet raises ZeroDivisionError; on any other it scales the intensity with the number of events: `Intensity / Card` does
not change (as long as events are left). -/
theorem C47_discard (es : Finset EId) (s : SprState) :
    (s.events = ∅ → (s.discard it es false).1 = .error .zeroDivisionError) ∧
    (s.events ≠ ∅ → (s.discard it es false).1 = .ok () ∧ (s.discard it es false).2.events = s.events \ es ∧
      (s.discard it es false).2.intensity * s.events.card = s.intensity * (s.events \ es).card) := by
  unfold SprState.discard causetDiscard
  simp only [Bool.false_eq_true, if_false]
  constructor
  · intro h
    rw [h]; simp
  · intro h
    have h0 : s.events.card ≠ 0 := by simpa using h
    rw [if_neg h0]
    refine ⟨rfl, rfl, ?_⟩
    have : (s.events.card : ℝ) ≠ 0 := by exact_mod_cast h0
    dsimp only
    field_simp

/-- **C47, refuted.** `add(unlink=True)` of an event that is not linked raises AttributeError after the event has been added: the causet has 1 event and intensity 0. -/
theorem C47_refuted_add : ∃ (s : SprState) (es : Finset EId), SprInv s ∧ (SprOp.add es true).Possible s ∧
    ((SprOp.add es true).step c it s).1 = .error .attributeError ∧ ((SprOp.add es true).step c it s).2.events.card = 1 ∧
    ((SprOp.add es true).step c it s).2.intensity = 0 := by
  refine ⟨{ events := ∅, intensity := 0, world := { heap := Heap.empty.alloc none [] [], crd := fun _ => none } }, {0}, ⟨by simp, by simp⟩, ?_, ?_⟩
  · intro e he
    rw [Finset.mem_singleton] at he
    subst he
    exact Nat.zero_lt_one
  have e1 : it.ord [250] ({0} : Finset ℕ) = [0] := by
    have hnd := it.nodup [250] ({0} : Finset ℕ)
    have hm : ∀ x, x ∈ it.ord [250] ({0} : Finset ℕ) ↔ x = 0 := fun x => by rw [it.mem]; simp
    exact List.perm_singleton.1 ((List.perm_ext_iff_of_nodup hnd (List.nodup_singleton _)).2 fun x => by simp [hm])
  have e2 : unlinkAll [0] (Heap.empty.alloc none [] []) = (.error .attributeError, Heap.empty.alloc none [] []) := by
    rfl
  simp only [SprOp.step, SprState.add, causetAdd, Finset.empty_union, e1, if_true, e2]
  simp

/-- **C47, refuted.** `sprinkle(1)` into a cylinder of dimension 1 raises ZeroDivisionError after the intensity has been increased: no events, intensity 1. -/
theorem C47_refuted_sprinkle (R : Draws) (junk : ℕ → Point) (S : CoordinateShape) (hn : S.name = "cylinder") (hd : S.dim = 1) (w : World Point) :
    let s : SprState := { events := ∅, intensity := 0, world := w }
    ((SprOp.sprinkle R junk S.dim S 1).step c it s).1 = .error .zeroDivisionError ∧ ((SprOp.sprinkle R junk S.dim S 1).step c it s).2.events.card = 0 ∧
    ((SprOp.sprinkle R junk S.dim S 1).step c it s).2.intensity = 1 := by
  have h := C48_cylinder_1d R junk S hn hd 1 (by simp)
  have h' : sprinkleCoords R junk S.dim 1 S = .error .zeroDivisionError := h
  simp only [SprOp.step, SprState.sprinkle]
  rw [if_neg (by omega)]
  simp only [h', Except.map]
  simp

/-! ## Density and length scale -/

/-- **C71.** For a sprinkled causet of positive intensity: `Density * Volume == Intensity` and `LengthScale ** Dim * Density == 1`, i.e. the length scale is the inverse
`Dim`-th root of the density. -/
theorem C71_sprinkled (S : CoordinateShape) (s : SprState) (hd : S.dim ≠ 0) (hv : 0 < S.volume) (hi : 0 < s.intensity) :
    s.density S * S.volume = s.intensity ∧ s.lengthScale S ^ S.dim * s.density S = 1 ∧ 0 < s.lengthScale S := by
  have hq : 0 ≤ S.volume / s.intensity := by positivity
  refine ⟨div_mul_cancel₀ _ hv.ne', ?_, Real.rpow_pos_of_pos (by positivity) _⟩
  rw [SprState.lengthScale, one_div, Real.rpow_inv_natCast_pow hq hd, SprState.density]
  field_simp

/-- **C71.** For an embedded causet (not sprinkled): `Density * Volume == Card`; the length scale is 0 without events, but for events it is the
`Dim`-th root of the density itself ... -/
theorem C71_embedded (S : CoordinateShape) (C : Finset EId) (hd : S.dim ≠ 0) (hv : 0 < S.volume) :
    embDensity S C * S.volume = C.card ∧ (C = ∅ → embLengthScale S C = 0) ∧ (C ≠ ∅ → embLengthScale S C ^ S.dim = embDensity S C) := by
  refine ⟨div_mul_cancel₀ _ hv.ne', ?_, ?_⟩
  · rintro rfl; simp [embLengthScale]
  · intro h
    have h0 : C.card ≠ 0 := by simpa using h
    have hq : 0 ≤ embDensity S C := by unfold embDensity; positivity
    rw [embLengthScale, if_neg h0, one_div, Real.rpow_inv_natCast_pow hq hd]

/-- **C71, refuted.** ... so it is the documented *inverse* root of the density exactly if the density is 1. -/
theorem C71_embedded_refuted (S : CoordinateShape) (C : Finset EId) (hd : S.dim ≠ 0) (hv : 0 < S.volume) (hC : C ≠ ∅) :
    embLengthScale S C ^ S.dim * embDensity S C = 1 ↔ embDensity S C = 1 := by
  rw [(C71_embedded S C hd hv).2.2 hC]
  have hq : 0 ≤ embDensity S C := by unfold embDensity; positivity
  constructor
  · intro h; nlinarith
  · intro h; rw [h]; norm_num

end

/-- The hypotheses of `C71_sprinkled` hold: a cube of dimension 4 with edge 2 and intensity 100. -/
example : ∃ (S : CoordinateShape), S.WellFormed ∧ S.dim ≠ 0 ∧ 0 < S.volume ∧ S.name = "cube" := by
  refine ⟨{ dim := 4, name := "cube", center := [0, 0, 0, 0], edge := some 2 }, ⟨by norm_num, rfl, ?_⟩, by norm_num, ?_, rfl⟩
  · exact Or.inr (Or.inr (Or.inr (Or.inl ⟨2, by norm_num, rfl⟩)))
  · simp [CoordinateShape.volume]

end Causets
