import Verif.Model.Permutations

/-!
# `layeredPermutations` beyond its first step, and `permuted_old` (causetpermutations.py:137-290)
-/

namespace Causets

namespace Heap

variable (it : Iter) (h : Heap)

/-! ## `layeredPermutations` (causetpermutations.py:137-170) -/

/-- one element of `layers_perm` with its iterator: the list that `next` gave last, and what the generator would still do -/
abbrev LayerState := List EId × (List (List EId) × Except Err Unit)

/-- the body of the `while` loop behind the `yield`, causetpermutations.py:159-170, for at least one layer: the loop over `l` from the last layer down to the first stops at the first
generator that is not exhausted (`none`: all are), then the layers behind it start again.  The generators do not depend on when they are run (no call in between changes events). -/
def layeredAdvance (C : Finset EId) (depth : ℕ) : List (Finset EId) → List LayerState → Except Err (Option (List LayerState))
  | layer :: ls, (p, g) :: st => match layeredAdvance C depth ls st with
    | .error x => .error x
    | .ok (some st') => .ok (some ((p, g) :: st'))
    | .ok none => match g with
      | ([], .ok ()) => .ok none
      | ([], .error x) => .error x
      | (q :: qs, e) => match layeredPermInit it h C depth ls with
        | .error x => .error x
        | .ok r => .ok (some ((q, qs, e) :: r))
  | _, _ => .ok none

/-- the `while` loop, causetpermutations.py:156-170, for at most `fuel` rounds: the contents of the yielded list at each `yield`, and how the generator ends.  Without layers the loop variable
`l` is not bound when line 167 reads it. -/
def layeredPermLoop (C : Finset EId) (depth : ℕ) (ls : List (Finset EId)) : ℕ → List LayerState → List (List (List EId)) × Except Err Unit
  | 0, _ => ([], .error .outOfFuel)
  | fuel + 1, st =>
    if ls = [] then ([st.map Prod.fst], .error .nameError)
    else match layeredAdvance it h C depth ls st with
      | .error x => ([st.map Prod.fst], .error x)
      | .ok none => ([st.map Prod.fst], .ok ())
      | .ok (some st') => let r := layeredPermLoop C depth ls fuel st'; (st.map Prod.fst :: r.1, r.2)

/-- `layeredPermutations`, causetpermutations.py:137-170, with at most `fuel` rounds of the loop: the contents at each `yield` -/
def layeredPermutations (C : Finset EId) (depth fuel : ℕ) (eventSet : Option (Finset EId)) : List (List (List EId)) × Except Err Unit :=
  match h.layered it C (some (eventSet.getD C)) false with
  | .error x => ([], .error x)
  | .ok ls => match layeredPermInit it h C depth ls with
    | .error x => ([], .error x)
    | .ok st => layeredPermLoop it h C depth ls fuel st

/-- `list(layeredPermutations(...))`: line 158 yields the same list object `layers_perm` every time, and lines 161 and 170 write into it, so all collected entries show its last contents -/
def layeredPermList (C : Finset EId) (depth fuel : ℕ) (eventSet : Option (Finset EId)) : Except Err (List (List (List EId))) :=
  match layeredPermutations it h C depth fuel eventSet with
  | (_, .error x) => .error x
  | (ys, .ok ()) => .ok (ys.map (fun y => ys.getLastD y))

/-! ## `permuted_old` (causetpermutations.py:173-290) -/

/-- the loop with `i_first`, `i_last`, causetpermutations.py:215-221 and 238-244; `i` is the index of the first element of the list -/
def spanLoop (p : EId → Bool) : ℕ → List EId → ℤ × ℤ → ℤ × ℤ
  | _, [], s => s
  | i, b :: bs, (f, l) => spanLoop p (i + 1) bs (if p b then (if f > l then ((i : ℤ), (i : ℤ)) else (f, (i : ℤ))) else (f, l))

/-- `i_first`, `i_last` after the loop, causetpermutations.py:213-221 and 236-244 -/
def span (p : EId → Bool) (layer : List EId) : ℤ × ℤ := spanLoop p 0 layer (0, -1)

/-- a dictionary from events to sets of events -/
abbrev EDict := EId → Option (Finset EId)

/-- `s.add(b); s.update(d[b])`, causetpermutations.py:224-225, 247-248, 253-254 -/
def addWith (d : EDict) (b : EId) (s : Finset EId) : Except Err (Finset EId) := match d b with
  | none => .error .keyError
  | some t => .ok (insert b s ∪ t)

/-- the same for every event of a list -/
def addAll (d : EDict) : List EId → Finset EId → Except Err (Finset EId)
  | [], s => .ok s
  | b :: bs, s => match addWith d b s with
    | .error x => .error x
    | .ok s' => addAll d bs s'

/-- the loop over a layer with the condition `i_first <= i <= i_last`, causetpermutations.py:222-225, 245-248 -/
def addSpan (d : EDict) (f l : ℤ) : ℕ → List EId → Finset EId → Except Err (Finset EId)
  | _, [], s => .ok s
  | i, b :: bs, s => if f ≤ (i : ℤ) ∧ (i : ℤ) ≤ l then
      match addWith d b s with
      | .error x => .error x
      | .ok s' => addSpan d f l (i + 1) bs s'
    else addSpan d f l (i + 1) bs s

/-- the loop over `m`, causetpermutations.py:211-225, over the layers from `l` on -/
def extFuture (a : EId) (d : EDict) : List (List EId) → Finset EId → Except Err (Finset EId)
  | [], s => .ok s
  | layer :: ls, s => match addSpan d (span (fun b => h.lt a b) layer).1 (span (fun b => h.lt a b) layer).2 0 layer s with
    | .error x => .error x
    | .ok s' => extFuture a d ls s'

/-- the loop over one layer, causetpermutations.py:209-226; `upper` are the layers from this one on -/
def extFuturesLayer (eventSet : Finset EId) (upper : List (List EId)) : List EId → EDict → Except Err EDict
  | [], d => .ok d
  | a :: as, d => match extFuture h a d upper (h.future a ∩ eventSet) with
    | .error x => .error x
    | .ok s => extFuturesLayer eventSet upper as (Function.update d a (some s))

/-- the loop over `l` from the last layer down to the first, causetpermutations.py:206-226 -/
def extFutures (eventSet : Finset EId) : List (List EId) → Except Err EDict
  | [] => .ok (fun _ => none)
  | layer :: ls => match extFutures eventSet ls with
    | .error x => .error x
    | .ok d => extFuturesLayer h eventSet (layer :: ls) layer d

/-- the loop over `k`, causetpermutations.py:234-254, over the layers below, the nearest one first: `ext_past` and `right` -/
def extPast (b : EId) (first : Bool) (fut d : EDict) : List (List EId) → Finset EId → Finset EId → Except Err (Finset EId × Finset EId)
  | [], s, right => .ok (s, right)
  | layer :: ls, s, right =>
    let sp := span (fun a => h.lt a b) layer
    match addSpan d sp.1 sp.2 0 layer s with
    | .error x => .error x
    | .ok s' => match (if first && decide (0 < sp.1) then addAll fut (layer.take sp.1.toNat) right else .ok right) with
      | .error x => .error x
      | .ok right' => extPast b first fut d ls s' right'

/-- the loop over the events of a layer, causetpermutations.py:232-255; `lower` are the layers below it, the nearest one first -/
def extPastsLayer (eventSet : Finset EId) (fut : EDict) (lower : List (List EId)) : Bool → List EId → EDict → Finset EId → Except Err (EDict × Finset EId)
  | _, [], d, right => .ok (d, right)
  | first, b :: bs, d, right => match extPast h b first fut d lower (h.past b ∩ eventSet) right with
    | .error x => .error x
    | .ok (s, right') => extPastsLayer eventSet fut lower false bs (Function.update d b (some s)) right'

/-- the loop that assigns the coordinates, causetpermutations.py:258-272: `L_this` and `P_this`.  `L_this` is initialised with a placeholder event (`none`). -/
def placeLayer (eventSet : Finset EId) (fut past : EDict) : List EId → Finset EId → List (Option EId) × List ℕ → Except Err (List (Option EId) × List ℕ)
  | [], _, r => .ok r
  | e :: es, right, (L, P) => match past e, fut e with
    | some pe, some fe =>
      let cone := insert e (pe ∪ fe)
      let right1 := right \ cone
      let left := (eventSet \ right1) \ cone
      let u := pe.card + left.card + 1
      let v := pe.card + right1.card
      if v < L.length then placeLayer eventSet fut past es (right1 ∪ cone) (L.set v (some e), P.set v u) else .error .indexError
    | _, _ => .error .keyError

/-- the loop over the layers, causetpermutations.py:230-272; `lower` are the layers below, the nearest one first -/
def placeLayers (eventSet : Finset EId) (fut : EDict) : List (List EId) → List (List EId) → EDict → List (Option EId) × List ℕ → Except Err (List (Option EId) × List ℕ)
  | _, [], _, r => .ok r
  | lower, layer :: ls, d, r => match extPastsLayer h eventSet fut lower true layer d ∅ with
    | .error x => .error x
    | .ok (d', right) => match placeLayer eventSet fut d' layer right r with
      | .error x => .error x
      | .ok r' => placeLayers eventSet fut (layer :: lower) ls d' r'

/-- `sum(len(ext_futures[e] - e.Future) for e in eventSet)`, causetpermutations.py:279-280 -/
def extendedCausals (fut : EDict) : List EId → Except Err ℕ
  | [] => .ok 0
  | e :: es => match fut e with
    | none => .error .keyError
    | some s => match extendedCausals fut es with
      | .error x => .error x
      | .ok n => .ok ((s \ h.future e).card + n)

/-- one round of the main loop, causetpermutations.py:199-280: `none` if an IndexError was caught (also for a place that stays empty), otherwise `L_this`, `P_this` and the number of
extended relations -/
def permutedOldStep (eventSet : Finset EId) (layers : List (List EId)) : Except Err (Option (List (Option EId) × List ℕ × ℕ)) :=
  match extFutures h eventSet layers with
  | .error x => .error x
  | .ok fut => match placeLayers h eventSet fut [] layers (fun _ => none) (List.replicate eventSet.card none, List.replicate eventSet.card 0) with
    | .error .indexError => .ok none
    | .error x => .error x
    | .ok (L, P) => if 0 ∈ P then .ok none
      else match extendedCausals h fut (it.ord [280] eventSet) with
        | .error x => .error x
        | .ok n => .ok (some (L, P, n))

/-- the better of two results, causetpermutations.py:281-285: the new one only if there is none yet or it extends less -/
def betterOf : Option (List (Option EId) × List ℕ × ℕ) → List (Option EId) × List ℕ × ℕ → List (Option EId) × List ℕ × ℕ
  | none, new => new
  | some old, new => if new.2.2 < old.2.2 then new else old

/-- the main loop, causetpermutations.py:192-290, over what `layeredPermutations` yields (`ending`: how the generator ends); `best` is `(L, P, extension_degree)`, `none` for the degree -1 -/
def permutedOldLoop (eventSet : Finset EId) (maxIterations : ℤ) (ending : Except Err Unit) :
    List (List (List EId)) → ℕ → Option (List (Option EId) × List ℕ × ℕ) → Except Err (List (Option EId) × List ℕ)
  | [], _, best => match ending with
    | .error x => .error x
    | .ok () => match best with
      | none => .ok ([], [])
      | some (L, P, _) => .ok (L, P)
  | y :: ys, n, best => if ((n : ℤ) + 1 > maxIterations) then
      match best with
      | none => .error .valueError
      | some (L, P, _) => .ok (L, P)
    else match permutedOldStep it h eventSet y with
      | .error x => .error x
      | .ok none => permutedOldLoop eventSet maxIterations ending ys (n + 1) best
      | .ok (some (L, P, d)) =>
        if (betterOf best (L, P, d)).2.2 = 0 then .ok ((betterOf best (L, P, d)).1, (betterOf best (L, P, d)).2.1)
        else permutedOldLoop eventSet maxIterations ending ys (n + 1) (some (betterOf best (L, P, d)))

/-- `permuted_old`, causetpermutations.py:173-290.  The generator is lazy: an error behind the last list that is asked for does not occur, and neither does it here. -/
def permutedOld (C : Finset EId) (depth fuel : ℕ) (eventSet : Option (Finset EId)) (maxIterations : ℤ) : Except Err (List (Option EId) × List ℕ) :=
  let s := eventSet.getD C
  let g := layeredPermutations it h C depth fuel (some s)
  permutedOldLoop it h s maxIterations g.2 g.1 0 none

end Heap

end Causets
