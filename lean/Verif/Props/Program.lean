import Verif.Lemmas.NewClosed
import Verif.Props.CreateOrder
import Verif.Props.MergeLink
import Verif.Props.MergeExact
import Verif.Props.LinkAny
import Verif.Props.Matrix
import Verif.Model.CausetLinks

/-! # C89 — whole programs -/

namespace Causets

open Heap

/-! ## Queries do not change the order -/

/-- a query that changes neither order nor labels, and keeps exact links exact -/
def Quiet {β : Type} (m : StateM Heap β) : Prop :=
  ∀ h : Heap, h.SameOrder (m.run h).2 ∧ (h.Valid → h.LinksExact → (m.run h).2.LinksExact)

namespace Quiet

variable {β γ : Type}

theorem pure' (x : β) : Quiet (pure x : StateM Heap β) := fun h => ⟨SameOrder.refl h, fun _ lx => lx⟩

theorem get' : Quiet (get : StateM Heap Heap) := fun h => ⟨SameOrder.refl h, fun _ lx => lx⟩

theorem bind' {m : StateM Heap β} {f : β → StateM Heap γ} (hm : Quiet m) (hf : ∀ x, Quiet (f x)) : Quiet (m >>= f) := by
  intro h
  obtain ⟨a, b⟩ := hm h
  obtain ⟨c, d⟩ := hf (m.run h).1 (m.run h).2
  exact ⟨a.trans c, fun v lx => d (a.valid v) (b v lx)⟩

theorem ite' {p : Prop} [Decidable p] {m m' : StateM Heap β} (h1 : Quiet m) (h2 : Quiet m') : Quiet (if p then m else m') := by
  split <;> assumption

theorem mapM' {f : γ → StateM Heap β} (hf : ∀ x, Quiet (f x)) (l : List γ) : Quiet (l.mapM f) := by
  induction l with
  | nil => exact pure' _
  | cons a l ih =>
    rw [List.mapM_cons]
    exact bind' (hf a) fun _ => bind' ih fun _ => pure' _

theorem linkPast (e : EId) : Quiet (linkPast e) := fun h =>
  ⟨linkPast_sameOrder h e, fun v lx => (linkPast_answers v e h (SameOrder.refl _) lx).2.2⟩
theorem linkFuture (e : EId) : Quiet (linkFuture e) := fun h =>
  ⟨linkFuture_sameOrder h e, fun v lx => (linkFuture_answers v e h (SameOrder.refl _) lx).2.2⟩
theorem linkCone (e : EId) : Quiet (linkCone e) := fun h =>
  ⟨linkCone_sameOrder h e, fun v lx => (linkCone_answers v e h (SameOrder.refl _) lx).2.2⟩
theorem isPastLink (a b : EId) : Quiet (isPastLink a b) := fun h =>
  ⟨isPastLink_sameOrder h a b, fun v lx => (isPastLink_answers v a b h (SameOrder.refl _) lx).2.2⟩
theorem isFutureLink (a b : EId) : Quiet (isFutureLink a b) := fun h =>
  ⟨isFutureLink_sameOrder h a b, fun v lx => (isFutureLink_answers v a b h (SameOrder.refl _) lx).2.2⟩
theorem isLinkedTo (a b : EId) : Quiet (isLinkedTo a b) :=
  bind' (isPastLink a b) fun _ => ite' (pure' _) (isFutureLink a b)
theorem linkPastCard (e : EId) : Quiet (linkPastCard e) := bind' (linkPast e) fun _ => pure' _
theorem linkFutureCard (e : EId) : Quiet (linkFutureCard e) := bind' (linkFuture e) fun _ => pure' _
theorem linkConeCard (e : EId) : Quiet (linkConeCard e) := fun h =>
  ⟨by
    show h.SameOrder ((Causets.linkConeCard e) h).2
    unfold Causets.linkConeCard
    split
    · exact SameOrder.refl h
    · exact link_sameOrder h e, fun v lx => (linkConeCard_answers v e h (SameOrder.refl _) lx).2.2⟩
theorem linkCountOf (it : Iter) (s : Finset EId) : Quiet (linkCountOf it s) :=
  bind' (mapM' (fun e => bind' (linkPast e) fun _ => pure' _) _) fun _ => pure' _

theorem rankLoop {rk : EId → EId → StateM Heap (Except Err ℕ∞)} (hrk : ∀ a b, Quiet (rk a b)) :
    ∀ (l : List (EId × EId)) (r : ℕ∞), Quiet (rankLoop rk l r)
  | [], _ => pure' _
  | (x, y) :: t, r => bind' (hrk x y) fun v => by
    cases v with
    | error e => exact pure' _
    | ok v => exact ite' (pure' _) (rankLoop hrk t _)

theorem rank (it : Iter) : ∀ (fuel : ℕ) (ctx : List ℕ) (a b : EId), Quiet (rank it fuel ctx a b)
  | 0, _, _, _ => pure' _
  | fuel + 1, ctx, a, b => bind' get' fun h => ite' (pure' _) (ite' (pure' _) (bind' (isFutureLink a b) fun _ => ite' (pure' _)
      (bind' (linkFuture a) fun al => bind' (linkPast b) fun bl => ite' (pure' _)
        (rankLoop (fun x y => rank it fuel (x :: y :: ctx) x y) _ _))))

theorem linkCount (it : Iter) (C : Finset EId) : ∀ o, Quiet (linkCount it C o)
  | none => bind' (mapM' linkPastCard _) fun _ => pure' _
  | some _ => bind' (mapM' (fun e => bind' (linkPast e) fun _ => pure' _) _) fun _ => pure' _

theorem linkPastMatrixOf (l : List EId) : Quiet (linkPastMatrixOf l) := mapM' (fun a => mapM' (fun b => isPastLink a b) l) l

theorem linkPastMatrix (it : Iter) (as : ArgSort) (C : Finset EId) : ∀ o, Quiet (linkPastMatrix it as C o)
  | some l => bind' (linkPastMatrixOf l) fun _ => pure' _
  | none => bind' get' fun h => by
    split
    · exact pure' _
    · exact bind' (linkPastMatrixOf _) fun _ => pure' _

theorem linkFutureMatrix (it : Iter) (as : ArgSort) (C : Finset EId) (o) : Quiet (linkFutureMatrix it as C o) :=
  bind' (linkPastMatrix it as C o) fun r => by cases r <;> exact pure' _

theorem isPathLoop (s : Finset EId) : ∀ (l : List EId) (n : ℕ), Quiet (isPathLoop s l n)
  | [], _ => pure' _
  | e :: es, n => bind' (linkCone e) fun _ => ite' (pure' _) (ite' (ite' (pure' _) (isPathLoop s es _)) (isPathLoop s es _))

theorem isPath (it : Iter) (C : Finset EId) : ∀ o, Quiet (isPath it C o)
  | none => ite' (pure' _) (bind' get' fun _ => pure' _)
  | some s => ite' (pure' _) (isPathLoop s _ _)

theorem perimetralEvents (a b : EId) : Quiet (perimetralEvents a b) :=
  bind' get' fun _ => ite' (pure' _) (bind' (linkFuture a) fun _ => bind' (linkPast b) fun _ => pure' _)
theorem perimetralEventCount (a b : EId) : Quiet (perimetralEventCount a b) :=
  bind' get' fun _ => ite' (pure' _) (bind' (linkFuture a) fun _ => bind' (linkPast b) fun _ => pure' _)
theorem internalEvents (a b : EId) : Quiet (internalEvents a b) :=
  bind' get' fun _ => ite' (pure' _) (bind' get' fun _ => bind' get' fun _ => bind' (perimetralEvents a b) fun _ => pure' _)
theorem internalEventCount (a b : EId) : Quiet (internalEventCount a b) :=
  bind' get' fun _ => ite' (pure' _) (bind' get' fun _ => bind' get' fun _ => bind' (perimetralEventCount a b) fun _ => pure' _)

theorem intRank (it : Iter) (ctx : List ℕ) (a b : EId) : Quiet (intRank it ctx a b) :=
  bind' get' fun _ => bind' (rank it _ _ a b) fun r => by
    cases r with
    | error x => exact pure' _
    | ok r => exact ite' (pure' _) (pure' _)

theorem maxRank (it : Iter) (ctx : List ℕ) : ∀ (l : List (EId × EId)) (m : ℕ), Quiet (maxRank it ctx l m)
  | [], _ => pure' _
  | (a, b) :: t, m => bind' (intRank it _ a b) fun r => by
    cases r with
    | error x => exact pure' _
    | ok r => exact maxRank it ctx t _

theorem rankDown (it : Iter) (s : Finset EId) (a : EId) : Quiet (rankDown it s a) :=
  bind' get' fun _ => ite' (bind' (maxRank it _ _ _) fun r => by cases r <;> exact pure' _) (pure' _)
theorem rankUp (it : Iter) (s : Finset EId) (a : EId) : Quiet (rankUp it s a) :=
  bind' get' fun _ => ite' (bind' (maxRank it _ _ _) fun r => by cases r <;> exact pure' _) (pure' _)

theorem ranksFilter {num : EId → StateM Heap (Except Err ℤ)} (hn : ∀ e, Quiet (num e)) (lo hi : ℤ) :
    ∀ (l : List EId) (acc : Finset EId), Quiet (ranksFilter num lo hi l acc)
  | [], _ => pure' _
  | e :: es, acc => bind' (hn e) fun r => by
    cases r with
    | error x => exact pure' _
    | ok r => exact ranksFilter hn lo hi es _

theorem ranksPast (it : Iter) (s : Finset EId) (first last : ℤ) : Quiet (ranksPast it s first last) :=
  ite' (bind' get' fun _ => ranksFilter (rankDown it s) _ _ _ _) (pure' _)

theorem ranks (it : Iter) (s : Finset EId) (first : ℤ) (last : Option ℤ) : Quiet (ranks it s first last) :=
  ite' (pure' _) (bind' (ranksPast it s _ _) fun r => by
    cases r with
    | error x => exact pure' _
    | ok r => exact ite' (bind' get' fun _ => ranksFilter (rankUp it s) _ _ _ _) (pure' _))

theorem rankNumbersLoop {num : EId → StateM Heap (Except Err ℤ)} (hn : ∀ e, Quiet (num e)) : ∀ l, Quiet (rankNumbersLoop num l)
  | [] => pure' _
  | e :: es => bind' (hn e) fun r => by
    cases r with
    | error x => exact pure' _
    | ok r => exact bind' (rankNumbersLoop hn es) fun r => by cases r <;> exact pure' _

theorem rankNumbers (it : Iter) (l : List EId) (reverse : Bool) : Quiet (rankNumbers it l reverse) :=
  ite' (pure' _) (rankNumbersLoop (by split; exacts [rankDown it _, rankUp it _]) l)

theorem pathsLoop {f : EId → ℤ → ℤ → StateM Heap (Except Err PathsOut)} (hf : ∀ e mn mx, Quiet (f e mn mx)) :
    ∀ (l : List EId) (mn mx : ℤ), Quiet (pathsLoop f l mn mx)
  | [], _, _ => pure' _
  | e :: es, mn, mx => bind' (hf e mn mx) fun r => by
    cases r with
    | error x => exact pure' _
    | ok r => exact bind' (pathsLoop hf es _ _) fun r => by cases r <;> exact pure' _

theorem pathsFind (it : Iter) (b : EId) (bL : Finset EId) (fm fx : Bool) :
    ∀ (fuel : ℕ) (path : List EId) (a : EId) (l mn mx : ℤ), Quiet (pathsFind it b bL fm fx fuel path a l mn mx)
  | 0, _, _, _, _, _ => pure' _
  | fuel + 1, path, a, l, mn, mx => bind' (linkFuture a) fun lf => bind' get' fun _ => ite' (pure' _) (ite' (pure' _)
      (bind' (pathsLoop (fun e mn mx => pathsFind it b bL fm fx fuel (path ++ [e]) e (l + 1) mn mx) _ _ _) fun r => by
        cases r <;> exact pure' _))

theorem pathsBody (it : Iter) (a b : EId) (fm fx : Bool) (mn mx : ℤ) : Quiet (pathsBody it a b fm fx mn mx) :=
  bind' get' fun _ => ite' (pure' _) (ite' (pure' _) (bind' (isFutureLink a b) fun _ => ite' (pure' _) (ite'
    (bind' (linkPast b) fun _ => bind' get' fun _ => bind' get' fun _ => bind' (pathsFind it b _ fm fx _ _ a _ _ _) fun r => by
      cases r with
      | error x => exact pure' _
      | ok r => exact ite' (ite' (pure' _) (pure' _)) (pure' _))
    (pure' _))))

theorem paths (it : Iter) (a b : EId) : ∀ arg, Quiet (paths it a b arg)
  | .str _ => pathsBody it a b _ _ _ _
  | .int _ => pathsBody it a b _ _ _ _
  | .list [] => pure' _
  | .list (_ :: _) => pathsBody it a b _ _ _ _
  | .other => pure' _

end Quiet

/-! ## `create` and `relate` do not read the link memory -/

namespace Heap

theorem relateClear_congr : ∀ (l : List EId) {h g : Heap}, h.SameOrder g → (relateClear l h).SameOrder (relateClear l g)
  | [], _, _, so => so
  | _ :: l, _, _, so => relateClear_congr l ⟨so.next, so.label, by simp [so.prec], by simp [so.succ]⟩

theorem relatePair_congr (r : Bool × Bool) (a b : EId) {h g : Heap} (so : h.SameOrder g) : (h.relatePair r a b).SameOrder (g.relatePair r a b) := by
  obtain ⟨r1, r2⟩ := r
  cases r1 <;> cases r2 <;> exact ⟨by simp [relatePair, so.next], by simp [relatePair, so.label], by simp [relatePair, so.prec], by simp [relatePair, so.succ]⟩

end Heap

theorem relateRow_congr {α : Type} (c : α → α → Bool × Bool) (crd : EId → Option α) (a : EId) : ∀ (l : List EId) {h g : Heap}, h.SameOrder g →
    (relateRow c crd a l h).1 = (relateRow c crd a l g).1 ∧ (relateRow c crd a l h).2.SameOrder (relateRow c crd a l g).2
  | [], _, _, so => ⟨rfl, so⟩
  | b :: l, h, g, so => by
    unfold relateRow
    split
    · exact relateRow_congr c crd a l (relatePair_congr _ a b so)
    · exact ⟨rfl, so⟩

theorem relateRows_congr {α : Type} (c : α → α → Bool × Bool) (crd : EId → Option α) : ∀ (l : List EId) {h g : Heap}, h.SameOrder g →
    (relateRows c crd l h).1 = (relateRows c crd l g).1 ∧ (relateRows c crd l h).2.SameOrder (relateRows c crd l g).2
  | [], _, _, so => ⟨rfl, so⟩
  | a :: l, h, g, so => by
    obtain ⟨h1, h2⟩ := relateRow_congr c crd a l so
    unfold relateRows
    rcases ha : relateRow c crd a l h with ⟨_ | _, h'⟩ <;> rcases hb : relateRow c crd a l g with ⟨_ | _, g'⟩ <;>
      rw [ha, hb] at h1 h2 <;> simp only [reduceCtorEq, Except.error.injEq] at h1
    · exact ⟨by rw [h1], h2⟩
    · exact relateRows_congr c crd l h2

theorem relate_congr {α : Type} (c : α → α → Bool × Bool) (it : Iter) (C : Finset EId) (crd : EId → Option α) {h g : Heap} (so : h.SameOrder g) (link : Bool) :
    (relate c it C link ⟨h, crd⟩).2.heap.SameOrder (relate c it C link ⟨g, crd⟩).2.heap := by
  obtain ⟨h1, h2⟩ := relateRows_congr c crd (it.ord [221] C) (relateClear_congr (it.ord [218] C) so)
  unfold relate
  dsimp only
  rcases ha : relateRows c crd (it.ord [221] C) (relateClear (it.ord [218] C) h) with ⟨_ | _, h'⟩ <;>
    rcases hb : relateRows c crd (it.ord [221] C) (relateClear (it.ord [218] C) g) with ⟨_ | _, g'⟩ <;>
    rw [ha, hb] at h1 h2 <;> simp only [reduceCtorEq, Except.error.injEq] at h1
  · exact h2
  · dsimp only at h2 ⊢
    cases link
    · exact ((causetUnlink_sameOrder it C h').symm.trans h2).trans (causetUnlink_sameOrder it C g')
    · exact ((causetLink_sameOrder it C h').symm.trans h2).trans (causetLink_sameOrder it C g')

theorem createEvents_congr {α : Type} (it : Iter) (fmt : Option (ℕ → String)) : ∀ (xs : List α) (n : ℕ) (crd : EId → Option α) {h g : Heap}, h.SameOrder g → h.Valid →
    (createEvents it fmt n xs ⟨h, crd⟩).1 = (createEvents it fmt n xs ⟨g, crd⟩).1 ∧ (createEvents it fmt n xs ⟨h, crd⟩).2.crd = (createEvents it fmt n xs ⟨g, crd⟩).2.crd ∧
      (createEvents it fmt n xs ⟨h, crd⟩).2.heap.SameOrder (createEvents it fmt n xs ⟨g, crd⟩).2.heap
  | [], _, _, _, _, so, _ => ⟨rfl, rfl, so⟩
  | x :: xs, n, crd, h, g, so, v => by
    have hn : ∀ l, (h.newEvent it l [] []).2.SameOrder (g.newEvent it l [] []).2 := by
      intro l
      obtain ⟨-, a1, a2, a3, a4, -⟩ := newEvent_fields it h v l [] [] (by simp) (by simp)
      obtain ⟨-, b1, b2, b3, b4, -⟩ := newEvent_fields it g (so.valid v) l [] [] (by simp) (by simp)
      refine ⟨by rw [a1, b1, so.next], by rw [a2, b2, so.next, so.label], ?_, ?_⟩
      · funext y; rw [a3, b3, so.next, so.prec]; simp
      · funext y; rw [a4, b4, so.next, so.succ]; simp
    unfold createEvents
    simp only [newEvent_fst, so.next]
    obtain ⟨c1, c2, c3⟩ := createEvents_congr it fmt xs (n + 1) (Function.update crd h.next (some x)) (hn (some (match fmt with
      | none => .int n
      | some f => .str (f n)))) (newEvent_valid it h v _ [] [] (by simp) (by simp) (by simp))
    exact ⟨congrArg (List.cons h.next) c1, c2, c3⟩

theorem create_congr {α : Type} (c : α → α → Bool × Bool) (it : Iter) (C : Finset EId) (coords : List α) (fmt : Option (ℕ → String)) (crd : EId → Option α)
    {h g : Heap} (so : h.SameOrder g) (v : h.Valid) :
    (create c it C coords fmt true ⟨h, crd⟩).2.2.2.heap.SameOrder (create c it C coords fmt true ⟨g, crd⟩).2.2.2.heap := by
  obtain ⟨c1, c2, c3⟩ := createEvents_congr it fmt coords (C.card + 1) crd so v
  unfold create
  simp only [if_true]
  rcases ha : createEvents it fmt (C.card + 1) coords ⟨h, crd⟩ with ⟨l, ⟨h', crd'⟩⟩
  rcases hb : createEvents it fmt (C.card + 1) coords ⟨g, crd⟩ with ⟨l2, ⟨g', crd2⟩⟩
  rw [ha, hb] at c1 c2 c3
  dsimp only at c1 c2 c3 ⊢
  subst c1 c2
  exact relate_congr c it _ _ c3 true

/-! ## Programs -/

/-- **Specification.** The methods of events and causets that only answer a question (those that read or fill the link memory; all other questions do not write
anything): `LinkPast`, `LinkFuture`, `LinkCone`, `isPastLink`, `isFutureLink`, `isLinkedTo`, `LinkPastCard`, `LinkFutureCard`, `LinkConeCard`, `LinkCountOf`, `Rank` of events;
`LinkCount`, `LinkPastMatrix`, `LinkFutureMatrix`, `isPath`, `PerimetralEvents`, `InternalEvents` and their numbers, `Ranks`, `RankNumbers`, `Paths` of causets. -/
inductive IsQuery : {β : Type} → StateM Heap β → Prop
  | linkPast (e : EId) : IsQuery (linkPast e)
  | linkFuture (e : EId) : IsQuery (linkFuture e)
  | linkCone (e : EId) : IsQuery (linkCone e)
  | isPastLink (a b : EId) : IsQuery (isPastLink a b)
  | isFutureLink (a b : EId) : IsQuery (isFutureLink a b)
  | isLinkedTo (a b : EId) : IsQuery (isLinkedTo a b)
  | linkPastCard (e : EId) : IsQuery (linkPastCard e)
  | linkFutureCard (e : EId) : IsQuery (linkFutureCard e)
  | linkConeCard (e : EId) : IsQuery (linkConeCard e)
  | linkCountOf (it : Iter) (s : Finset EId) : IsQuery (linkCountOf it s)
  | rank (it : Iter) (depth : ℕ) (ctx : List ℕ) (a b : EId) : IsQuery (rank it depth ctx a b)
  | linkCount (it : Iter) (C : Finset EId) (s : Option (Finset EId)) : IsQuery (linkCount it C s)
  | linkPastMatrix (it : Iter) (as : ArgSort) (C : Finset EId) (l : Option (List EId)) : IsQuery (linkPastMatrix it as C l)
  | linkFutureMatrix (it : Iter) (as : ArgSort) (C : Finset EId) (l : Option (List EId)) : IsQuery (linkFutureMatrix it as C l)
  | isPath (it : Iter) (C : Finset EId) (s : Option (Finset EId)) : IsQuery (isPath it C s)
  | perimetralEvents (a b : EId) : IsQuery (perimetralEvents a b)
  | perimetralEventCount (a b : EId) : IsQuery (perimetralEventCount a b)
  | internalEvents (a b : EId) : IsQuery (internalEvents a b)
  | internalEventCount (a b : EId) : IsQuery (internalEventCount a b)
  | ranks (it : Iter) (s : Finset EId) (first : ℤ) (last : Option ℤ) : IsQuery (ranks it s first last)
  | rankNumbers (it : Iter) (l : List EId) (reverse : Bool) : IsQuery (rankNumbers it l reverse)
  | paths (it : Iter) (a b : EId) (arg : LenArg) : IsQuery (paths it a b arg)

theorem IsQuery.quiet {β : Type} {m : StateM Heap β} (hm : IsQuery m) : Quiet m := by
  cases hm with
  | linkPast e => exact .linkPast e
  | linkFuture e => exact .linkFuture e
  | linkCone e => exact .linkCone e
  | isPastLink a b => exact .isPastLink a b
  | isFutureLink a b => exact .isFutureLink a b
  | isLinkedTo a b => exact .isLinkedTo a b
  | linkPastCard e => exact .linkPastCard e
  | linkFutureCard e => exact .linkFutureCard e
  | linkConeCard e => exact .linkConeCard e
  | linkCountOf it s => exact .linkCountOf it s
  | rank it d ctx a b => exact .rank it d ctx a b
  | linkCount it C s => exact .linkCount it C s
  | linkPastMatrix it as C l => exact .linkPastMatrix it as C l
  | linkFutureMatrix it as C l => exact .linkFutureMatrix it as C l
  | isPath it C s => exact .isPath it C s
  | perimetralEvents a b => exact .perimetralEvents a b
  | perimetralEventCount a b => exact .perimetralEventCount a b
  | internalEvents a b => exact .internalEvents a b
  | internalEventCount a b => exact .internalEventCount a b
  | ranks it s f l => exact .ranks it s f l
  | rankNumbers it l r => exact .rankNumbers it l r
  | paths it a b arg => exact .paths it a b arg

/-- **Specification.** The states of the events reached by programs: sequences of calls of the constructors of events and causets and of the methods that change events or
causets or answer questions, in any order and for any iteration order of sets.  Every call may end in an exception where the model says so.  With `links = true` the
programs obey three rules that keep the link memory right: an event with link memory is only disjoined if no event at the end of a link that arises has link memory; `merge`
is only called if of the past set only maximal events and of the future set only minimal events have link memory (by `C08_always_iff` and `C18_always_iff` these two rules
are necessary if the iteration order is not known); `Causet.link` only for closed causets.  The other hypotheses are those of the documentation. -/
inductive Program (links : Bool) : Heap → Prop
  | start : Program links Heap.empty
  | newEvent (h : Heap) (it : Iter) (l : Option Label) (P F : List EId) : Program links h → (∀ p ∈ P, h.Exists p) → (∀ f ∈ F, h.Exists f) →
      (∀ p ∈ P, ∀ f ∈ F, h.Lt p f) → Program links (h.newEvent it l P F).2
  | fromPermutation (h : Heap) (it : Iter) (fmt : LabelFormat) (P : List ℤ) : Program links h → Program links (fromPermutation it fmt P h).2
  | newChain (h : Heap) (it : Iter) (fmt : LabelFormat) (n : ℤ) : Program links h → Program links (newChain it fmt n h).2
  | newAntichain (h : Heap) (it : Iter) (fmt : LabelFormat) (n : ℤ) : Program links h → Program links (newAntichain it fmt n h).2
  | newFence (h : Heap) (it : Iter) (length height : ℤ) (closed : Bool) : Program links h → Program links (newFence it length height closed h).2
  | newCrown (h : Heap) (it : Iter) (length : ℤ) : Program links h → Program links (newCrown it length h).2
  | newSimplex (h : Heap) (it : Iter) (d : ℤ) (central : Bool) : Program links h → Program links (newSimplex it d central h).2
  | fromPastMatrix (h : Heap) (it : Iter) (n : ℕ) (C : BMat) : Program links h → IsOrderMatrix n C → Program links (fromPastMatrix it C h).2
  | fromFutureMatrix (h : Heap) (it : Iter) (n : ℕ) (C : BMat) : Program links h → IsOrderMatrix n C → Program links (fromFutureMatrix it C h).2
  | create (h : Heap) (it : Iter) {α : Type} (c : α → α → Bool × Bool) (S : Set α) (C : Finset EId) (coords : List α) (fmt : Option (ℕ → String)) (crd : EId → Option α) :
      Program links h → IsCausalOrder c S → (∀ e ∈ C, h.Exists e) → Closed h.Lt C → (∀ e ∈ C, ∃ x ∈ S, crd e = some x) → (∀ x ∈ coords, x ∈ S) →
      Program links (create c it C coords fmt true ⟨h, crd⟩).2.2.2.heap
  | relate (h : Heap) (it : Iter) {α : Type} (c : α → α → Bool × Bool) (S : Set α) (C : Finset EId) (link : Bool) (crd : EId → Option α) :
      Program links h → IsCausalOrder c S → (∀ e ∈ C, h.Exists e) → Closed h.Lt C → (∀ e ∈ C, ∃ x ∈ S, crd e = some x) → Program links (relate c it C link ⟨h, crd⟩).2.heap
  | relabel (h : Heap) (it : Iter) {β : Type} (C : Finset EId) (key : EId → β) (argsort : List β → List ℕ) (descending : Bool) : Program links h →
      Program links (relabel it C key argsort descending h)
  | link (h : Heap) (e : EId) : Program links h → Program links (h.link e)
  | unlink (h : Heap) (e : EId) : Program links h → Program links (h.unlink e).2
  | query (h : Heap) {β : Type} (m : StateM Heap β) : Program links h → IsQuery m → Program links (m.run h).2
  | disjoin (h : Heap) (it : Iter) (e : EId) : Program links h →
      (links = true → h.hasBeenLinked e = true → ∀ a b, OnlyBetween h.Lt a e b → h.hasBeenLinked a = false ∧ h.hasBeenLinked b = false) →
      Program links (h.disjoin it e).2
  | merge (h : Heap) (it : Iter) (P F : Finset EId) : Program links h → (∀ p ∈ P, h.Exists p) → (∀ f ∈ F, h.Exists f) → Closed h.Lt P → Closed h.Lt F → Disjoint P F →
      (links = true → (∀ p ∈ P, h.hasBeenLinked p = true → ∀ x, ¬ h.Lt p x) ∧ (∀ f ∈ F, h.hasBeenLinked f = true → ∀ x, ¬ h.Lt x f)) →
      Program links (merge it P F false h).2
  | mergeDisjoint (h : Heap) (it : Iter) (P F : Finset EId) : Program links h → Program links (merge it P F true h).2
  | causetLink (h : Heap) (it : Iter) (C : Finset EId) : Program links h →
      (links = true → (∀ e ∈ C, ∀ x, Covers h.Lt x e → x ∈ C ∨ h.hasBeenLinked x = true) ∧ (∀ e ∈ C, ∀ x, Covers h.Lt e x → x ∈ C)) →
      Program links (causetLink it C h).2
  | causetUnlink (h : Heap) (it : Iter) (C : Finset EId) : Program links h → Program links (causetUnlink it C h).2
  | add (h : Heap) (it : Iter) (C s : Finset EId) (u : Bool) : Program links h → Program links (causetAdd it C s u h).2.2
  | discard (h : Heap) (it : Iter) (C s : Finset EId) (u : Bool) : Program links h → Program links (causetDiscard it C s u h).2.2

/-- the invariant -/
def Inv (links : Bool) (h : Heap) : Prop := h.Valid ∧ (links = true → h.LinksExact)

theorem Inv.newClosed (links : Bool) : NewClosed 0 (Inv links) := fun h it l P q hP =>
  ⟨newEvent_valid it h q.1 l P [] (fun p hp => (hP p hp).2) (by simp) (by simp), fun hl => newEvent_linksExact it h q.1 (q.2 hl) l P [] (fun p hp => (hP p hp).2) (by simp) (by simp)⟩

theorem Inv.of_sameOrder {links : Bool} {h g : Heap} (q : Inv links h) (so : h.SameOrder g) (lx : h.LinksExact → g.LinksExact) : Inv links g :=
  ⟨so.valid q.1, fun hl => lx (q.2 hl)⟩

theorem relabel_inv {links : Bool} : ∀ (idx : List ℕ) (L : List EId) (i : ℕ) (h : Heap), Inv links h → Inv links (relabelLoop L i idx h)
  | [], _, _, _, q => q
  | _ :: idx, L, i, _, q => relabel_inv idx L (i + 1) _
      ⟨⟨q.1.order, q.1.past_eq, q.1.future_eq, q.1.exists_of_lt⟩, fun hl => ⟨(q.2 hl).past, (q.2 hl).future, (q.2 hl).both⟩⟩

theorem disjoin_unlinked (it : Iter) (h : Heap) (e : EId) (hl : h.hasBeenLinked e ≠ true) : (h.disjoin it e).2 = (h.unlink e).2 := by
  have : ∃ x, (h.unlink e).1 = .error x := by
    unfold unlink
    cases h1 : h.lprec e with
    | none => exact ⟨_, rfl⟩
    | some s =>
      cases h2 : h.lsucc e with
      | none => simp [h2]
      | some t => simp [hasBeenLinked, h1, h2] at hl
  obtain ⟨x, hx⟩ := this
  unfold disjoin
  rcases hu : h.unlink e with ⟨r, g⟩
  rw [hu] at hx
  dsimp only at hx
  subst hx
  rfl

theorem relate_inv {links : Bool} (h : Heap) (it : Iter) {α : Type} (c : α → α → Bool × Bool) (S : Set α) (C : Finset EId) (link : Bool) (crd : EId → Option α)
    (hc : IsCausalOrder c S) (hex : ∀ e ∈ C, h.Exists e) (hcl : Closed h.Lt C) (hS : ∀ e ∈ C, ∃ x ∈ S, crd e = some x) (q : Inv links h) :
    Inv links (relate c it C link ⟨h, crd⟩).2.heap := by
  by_cases hne : Nonempty S
  · obtain ⟨x0⟩ := hne
    have hpos : ∀ g : Heap, g.SameOrder h → g.Valid → g.LinksExact → (relate c it C link ⟨g, crd⟩).2.heap.Valid ∧ (relate c it C link ⟨g, crd⟩).2.heap.LinksExact := by
      intro g so vg lg
      obtain ⟨w', h1, -, -, -, h2, h3, -⟩ := C42_causal_order c S hc it C link ⟨g, crd⟩ vg lg (fun e he => by have := hex e he; unfold Heap.Exists at *; rw [so.next] at this; exact this)
        (by rw [← so.Lt]; exact hcl) (fun e => (crd e).getD x0.1) (fun e he => by obtain ⟨x, -, hx⟩ := hS e he; simp [hx]) (fun e he => by obtain ⟨x, hx, hx2⟩ := hS e he; simpa [hx2] using hx)
      rw [h1]; exact ⟨h2, h3⟩
    refine ⟨?_, fun hl => (hpos h (SameOrder.refl h) q.1 (q.2 hl)).2⟩
    let g : Heap := { h with lprec := fun _ => none, lsucc := fun _ => none }
    have so : g.SameOrder h := ⟨rfl, rfl, rfl, rfl⟩
    exact (relate_congr c it C crd so link).valid (hpos g so (so.symm.valid q.1) ⟨by simp [g], by simp [g], by simp [g]⟩).1
  · have hC : C = ∅ := Finset.eq_empty_of_forall_notMem fun e he => by obtain ⟨x, hx, -⟩ := hS e he; exact hne ⟨⟨x, hx⟩⟩
    subst hC
    have ho : ∀ k, it.ord k ∅ = [] := fun k => List.eq_nil_iff_forall_not_mem.2 fun x hx => absurd ((it.mem _ _ _).1 hx) (by simp)
    unfold relate
    simp only [ho, relateClear, relateRows]
    cases link
    · exact q.of_sameOrder (causetUnlink_sameOrder it ∅ h) (fun lx => unlinkLinked_linksExact _ _ lx)
    · exact ⟨(causetLink_sameOrder it ∅ h).valid q.1, fun hl =>
        (C38_any it q.1 (q.2 hl) ∅ ((C38_outcome it q.1 (q.2 hl) ∅).1.2 (by simp))).2.2.2.2 (by simp)⟩

theorem Program.inv {links : Bool} {h : Heap} (hp : Program links h) : Inv links h := by
  have hV : ∀ h, Inv links h → 0 ≤ h.next := fun h _ => Nat.zero_le _
  induction hp with
  | start => exact ⟨empty_valid, fun _ => empty_linksExact⟩
  | newEvent h it l P F _ hP hF hs q => exact ⟨newEvent_valid it h q.1 l P F hP hF hs, fun hl => newEvent_linksExact it h q.1 (q.2 hl) l P F hP hF hs⟩
  | fromPermutation h it fmt P _ q => exact ((Inv.newClosed links).fromPermutation hV it fmt P h q).1
  | newChain h it fmt n _ q => exact ((Inv.newClosed links).fromPermutation hV it fmt _ h q).1
  | newAntichain h it fmt n _ q => exact ((Inv.newClosed links).fromPermutation hV it fmt _ h q).1
  | newFence h it l n cl _ q => exact ((Inv.newClosed links).newFence hV it l n cl h q).1
  | newCrown h it l _ q => exact ((Inv.newClosed links).newFence hV it l 1 true h q).1
  | newSimplex h it d ct _ q => exact ((Inv.newClosed links).newSimplex hV it d ct h q).1
  | fromPastMatrix h it n C _ hC q =>
    obtain ⟨ids, h', e1, hr, -, hl, -⟩ := C14_fromPastMatrix it n C hC h q.1
    rw [e1]; exact ⟨hr.valid, fun hh => hl (q.2 hh)⟩
  | fromFutureMatrix h it n C _ hC q =>
    obtain ⟨ids, h', e1, hr, -, hl, -⟩ := C14_fromFutureMatrix it n C hC h q.1
    rw [e1]; exact ⟨hr.valid, fun hh => hl (q.2 hh)⟩
  | create h it c S C coords fmt crd _ hc hex hcl hS hco q =>
    refine ⟨?_, fun hl => (C42_create c S hc it C coords fmt ⟨h, crd⟩ q.1 (q.2 hl) hex hcl hS hco).2.2.1⟩
    let g : Heap := { h with lprec := fun _ => none, lsucc := fun _ => none }
    have so : g.SameOrder h := ⟨rfl, rfl, rfl, rfl⟩
    have vg : g.Valid := so.symm.valid q.1
    have lg : g.LinksExact := ⟨by simp [g], by simp [g], by simp [g]⟩
    exact (create_congr c it C coords fmt crd so vg).valid (C42_create c S hc it C coords fmt ⟨g, crd⟩ vg lg hex hcl hS hco).2.1
  | relate h it c S C link crd _ hc hex hcl hS q => exact relate_inv h it c S C link crd hc hex hcl hS q
  | relabel h it C key argsort desc _ q => exact relabel_inv _ _ _ _ q
  | link h e _ q => exact ⟨(link_sameOrder h e).valid q.1, fun hl => link_linksExact q.1 (q.2 hl) e⟩
  | unlink h e _ q => exact q.of_sameOrder (unlink_sameOrder h e) (fun lx => unlink_linksExact lx e)
  | query h m _ hm q => exact ⟨(hm.quiet h).1.valid q.1, fun hl => (hm.quiet h).2 q.1 (q.2 hl)⟩
  | disjoin h it e _ hh q =>
    by_cases hl : h.hasBeenLinked e = true
    · exact ⟨disjoin_valid it h q.1 e hl, fun h1 => (disjoin_linksExact_iff it h q.1 (q.2 h1) e hl).2 (fun a b hab => by
        obtain ⟨h2, h3⟩ := hh h1 hl a b hab
        simp [h2, h3])⟩
    · rw [disjoin_unlinked it h e hl]
      exact q.of_sameOrder (unlink_sameOrder h e) (fun lx => unlink_linksExact lx e)
  | merge h it P F _ eP eF hP hF hd hu q =>
    refine ⟨merge_valid it P F h q.1 eP eF (fun p hp x hx => hP p hp x (Or.inr hx)) (fun p hp x hx => hF p hp x (Or.inl hx)) hd, fun hl => ?_⟩
    exact (C18_exact_iff it q.1 (q.2 hl) P F hP hF hd).2 (fun p hp f hf _ => ⟨(hu hl).1 p hp, (hu hl).2 f hf⟩)
  | mergeDisjoint h it P F _ q => exact q
  | causetLink h it C _ hC q => exact ⟨(causetLink_sameOrder it C h).valid q.1, fun hl =>
      (C38_any it q.1 (q.2 hl) C ((C38_outcome it q.1 (q.2 hl) C).1.2 (hC hl).1)).2.2.2.2 (hC hl).2⟩
  | causetUnlink h it C _ q => exact q.of_sameOrder (causetUnlink_sameOrder it C h) (fun lx => unlinkLinked_linksExact _ _ lx)
  | add h it C s u _ q =>
    refine q.of_sameOrder (causetAdd_sameOrder it C s u h) (fun lx => ?_)
    unfold causetAdd; dsimp only; split
    exacts [unlinkAll_linksExact _ _ lx, lx]
  | discard h it C s u _ q =>
    refine q.of_sameOrder (causetDiscard_sameOrder it C s u h) (fun lx => ?_)
    unfold causetDiscard; dsimp only; split
    exacts [unlinkAll_linksExact _ _ lx, lx]

/-- **C89, order.** In every state reached by any program, `<` is a strict partial order of existing events, and `Past` and `Future` of all events mirror each other. -/
theorem C89_order (h : Heap) (hp : Program false h) :
    StrictOrd h.Lt ∧ (∀ a b, a ∈ h.past b ↔ b ∈ h.future a) ∧ (∀ a b, a ∈ h.past b ↔ h.Lt a b) ∧ (∀ a b, h.Lt a b → h.Exists a ∧ h.Exists b) := by
  have v := hp.inv.1
  exact ⟨v.order, fun a b => by rw [v.past_eq, v.future_eq], v.past_eq, v.exists_of_lt⟩

/-- **C89, links.** In every state reached by a program that obeys the rules for the link memory, all link queries answer with the covering relation of the current
order, no matter what has been asked, linked and unlinked before. -/
theorem C89_links (h : Heap) (hp : Program true h) (e : EId) :
    (∀ x, x ∈ ((linkPast e).run h).1 ↔ Covers h.Lt x e) ∧ (∀ x, x ∈ ((linkFuture e).run h).1 ↔ Covers h.Lt e x) ∧
    (∀ x, x ∈ ((linkCone e).run h).1 ↔ Covers h.Lt x e ∨ Covers h.Lt e x) ∧
    (∀ a, ((isPastLink e a).run h).1 = true ↔ Covers h.Lt a e) ∧ (∀ a, ((isFutureLink e a).run h).1 = true ↔ Covers h.Lt e a) := by
  obtain ⟨v, lx⟩ := hp.inv
  have lx := lx rfl
  have so := SameOrder.refl h
  refine ⟨fun x => ?_, fun x => ?_, fun x => ?_, fun x => ?_, fun x => ?_⟩
  · rw [(linkPast_answers v e h so lx).1, mem_pastLinks v]
  · rw [(linkFuture_answers v e h so lx).1, mem_futureLinks v]
  · rw [(linkCone_answers v e h so lx).1, Finset.mem_union, mem_pastLinks v, mem_futureLinks v]
  · rw [(isPastLink_answers v e x h so lx).1, decide_eq_true_iff, mem_pastLinks v]
  · rw [(isFutureLink_answers v e x h so lx).1, decide_eq_true_iff, mem_futureLinks v]

/-- **C89, questions.** No question changes what exists, the labels or the order, in any state whatsoever. -/
theorem C89_questions {β : Type} (m : StateM Heap β) (hm : IsQuery m) (h : Heap) :
    let h' := (m.run h).2
    (∀ e, h'.Exists e ↔ h.Exists e) ∧ (∀ e, h'.label e = h.label e) ∧ (∀ e, h'.past e = h.past e) ∧ (∀ e, h'.future e = h.future e) ∧ (∀ a b, h'.Lt a b ↔ h.Lt a b) := by
  intro h'
  have so := (hm.quiet h).1
  refine ⟨fun e => by unfold Heap.Exists; rw [so.next], fun e => by rw [so.label], fun e => ?_, fun e => ?_, fun a b => by rw [so.Lt]⟩
  · show h'.prec e = h.prec e; rw [so.prec]
  · show h'.succ e = h.succ e; rw [so.succ]

/-- C89: a program that builds a chain of three events, asks for a rank (which fills the link memory), links the causet, builds a crown beside it, unlinks the
middle of the chain and asks again; its state is non-trivial -/
example : ∃ h, Program true h ∧ h.Lt 0 1 ∧ h.Lt 1 2 ∧ h.Lt 0 2 := by
  have p1 : Program true exChain3 := by
    refine .newEvent _ _ _ _ _ (.newEvent _ _ _ _ _ (.newEvent _ _ _ _ _ .start ?_ ?_ ?_) ?_ ?_ ?_) ?_ ?_ ?_ <;>
      simp [Heap.Exists, Heap.newEvent_fst] <;> decide
  have p2 := Program.query _ _ p1 (.rank Iter.asc 5 [] 0 2)
  have s2 := ((IsQuery.rank Iter.asc 5 [] 0 2).quiet exChain3).1
  have p3 := Program.causetLink _ Iter.asc {0, 1, 2} p2 (fun _ => by
    rw [s2.Lt]
    have v := exChain3_reach.reachable.valid
    have h3 : ∀ y, y < 3 → y ∈ ({0, 1, 2} : Finset EId) := fun y hy => by
      simp only [Finset.mem_insert, Finset.mem_singleton]
      omega
    exact ⟨fun x _ y hy => Or.inl (h3 y (v.exists_of_lt _ _ hy.1).1), fun x _ y hy => h3 y (v.exists_of_lt _ _ hy.1).2⟩)
  have s3 := s2.trans (causetLink_sameOrder Iter.asc {0, 1, 2} _)
  have p4 := Program.unlink _ 1 p3
  have s4 := s3.trans (unlink_sameOrder _ 1)
  have p5 := Program.query _ _ p4 (.linkPast 2)
  have s5 := s4.trans ((IsQuery.linkPast 2).quiet _).1
  refine ⟨_, p5, ?_⟩
  rw [s5.Lt]
  exact ⟨by decide, by decide, by decide⟩

end Causets
