import Verif.Model.Distance

/-!
# Permutations of causets (causetpermutations.py)

Modelled here: `permuted` with its helpers, `findClosedFences`, `AntichainPermutations`, the first combination of `layeredPermutations`.  The full `layeredPermutations` and the functions with the suffix `_old` are in Model/PermutedOld.lean and Model/AntichainOld.lean.
-/

namespace Causets

namespace Heap

variable (it : Iter) (h : Heap)

/-! ## `permuted` (causetpermutations.py:432-545) -/

/-- `__perm_layeredsubset`, causetpermutations.py:432-465: `Future` is a property, so `e.Future()` calls a set and raises TypeError in the sort key of the first event; without
any past infinity event `PInf_sorted[0]` raises IndexError -/
def permLayered (E : Finset EId) : Except Err (List EId × List ℕ) :=
  if h.pastInfOf E = ∅ then .error .indexError else .error .typeError

/-- the first `while` loop of `__perm_jointsubset`, causetpermutations.py:485-491: `L_start` and the remaining set (with a bound on the number of rounds) -/
def stripPast : ℕ → Finset EId → List EId × Finset EId
  | 0, E => ([], E)
  | fuel + 1, E =>
    match it.ord [488] (h.pastInfOf E) with
    | [e] => let r := stripPast fuel (E.erase e); (e :: r.1, r.2)
    | _ => ([], E)

/-- the second `while` loop, causetpermutations.py:492-497: `L_end` and the remaining set -/
def stripFuture : ℕ → Finset EId → List EId × Finset EId
  | 0, E => ([], E)
  | fuel + 1, E =>
    match it.ord [494] (h.futureInfOf E) with
    | [e] => let r := stripFuture fuel (E.erase e); (r.1 ++ [e], r.2)
    | _ => ([], E)

end Heap

/-- `list(range(a, b))` -/
def pyRange (a b : ℕ) : List ℕ := (List.range (b - a)).map (· + a)

/-- the loop of `__perm_disjointsubsets`, causetpermutations.py:519-531, over the sorted subsets; `joint` is `__perm_jointsubset`, whose third result is the subset after the call (its events are
removed), so that `len(subset)` is the length after the call -/
def permDisjointLoop (joint : Finset EId → ℕ → Except Err (List EId × List ℕ × Finset EId)) :
    List (Finset EId) → ℕ → List EId → List ℕ → Except Err (List EId × List ℕ)
  | [], _, L, P => .ok (L, P)
  | E :: subsets, s, L, P => match joint E s with
    | .error x => .error x
    | .ok (sL, sP, E') => permDisjointLoop joint subsets (s + E'.card) (L ++ sL) (sP ++ P)

/-- `__perm_disjointsubsets`, causetpermutations.py:510-531 (the sort is stable) -/
def permDisjoint (joint : Finset EId → ℕ → Except Err (List EId × List ℕ × Finset EId)) (subsets : List (Finset EId)) (s : ℕ) : Except Err (List EId × List ℕ) :=
  permDisjointLoop joint (subsets.mergeSort (fun a b => decide (b.card ≤ a.card))) s [] []

namespace Heap

variable (it : Iter) (h : Heap)

/-- `__perm_jointsubset`, causetpermutations.py:468-507; the first argument bounds the recursion -/
def permJoint (C : Finset EId) : ℕ → Finset EId → ℕ → Except Err (List EId × List ℕ × Finset EId)
  | 0, _, _ => .error .outOfFuel
  | fuel + 1, E, s =>
    let st := h.stripPast it E.card E
    let en := h.stripFuture it st.2.card st.2
    match h.disjointSets it C (some en.2) with
    | .error x => .error x
    | .ok central =>
      match (if central.length = 1 then h.permLayered en.2 else permDisjoint (permJoint C fuel) central (s + st.1.length)) with
      | .error x => .error x
      | .ok (L, P) => .ok (st.1 ++ L ++ en.1, pyRange s st.1.length ++ P ++ pyRange (E.card - en.1.length + 1) en.1.length, en.2)

/-- `permuted`, causetpermutations.py:534-545; the recursion gets one more step than there are events -/
def permuted (C : Finset EId) (eventSet : Option (Finset EId)) : Except Err (List EId × List ℕ) :=
  match h.disjointSets it C (some (eventSet.getD C)) with
  | .error x => .error x
  | .ok subsets => permDisjoint (h.permJoint it C ((eventSet.getD C).card + 1)) subsets 1

/-! ## `findClosedFences` (causetpermutations.py:295-429) -/

/-- a closed fence: past events, future events, orientation -/
abbrev Fence := List EId × List EId × ℤ

/-- `all(F[i].Past & PStartSet == {P[i], P[i + 1]} for i in range(len(P) - 1))`, causetpermutations.py:357-359, and the same with futures, 368-370 -/
def zigzag (cone : EId → Finset EId) (P F : List EId) : Bool :=
  (List.range (P.length - 1)).all (fun i => decide (cone (F.getD i 0) ∩ P.toFinset = {P.getD i 0, P.getD (i + 1) 0}))

/-- `isValidStart`, causetpermutations.py:344-349 -/
def validStart (P F : List EId) (PA FA : Finset EId) : Bool :=
  (decide (0 < P.length) || decide (0 < F.length)) && (decide (P.length ≤ F.length + 1) && decide (F.length ≤ P.length + 1)) &&
    decide (P.toFinset ⊆ PA) && decide (F.toFinset ⊆ FA)

/-- `isStartShapeN`, `isClosedFenceN`, causetpermutations.py:355-365 (`cone` is `Past`), and `isStartShapeV`, `isClosedFenceV`, 366-376 (with `P` and `F` exchanged) -/
def startShape (cone : EId → Finset EId) (valid : Bool) (P F : List EId) : Except Err (Bool × Bool) :=
  if F.length ≤ P.length then
    let shape := valid && zigzag cone P F
    if P.length = F.length then
      match F.getLast?, P.getLast?, P.head? with
      | some f, some p, some p0 =>
        let terminal := cone f ∩ P.toFinset
        let closed := decide (1 < P.length) && decide (terminal = {p, p0})
        .ok (shape && (closed || decide (terminal = {p})), closed)
      | _, _, _ => .error .indexError
    else .ok (shape, false)
  else .ok (false, false)

/-- the state of the `while` loop: the fences and the extension sets -/
structure FenceState where
  pFence : List EId
  fFence : List EId
  fFenceX : List (Finset EId)
  fAchain : Finset EId

/-- the `while` loop, causetpermutations.py:396-428, for at most `fuel` rounds; the indices `PFenceXIndex`, `FFenceXIndex` stay 0, so the loop can only end with an exception.
The branch with `canFTerminate` always ends with the IndexError of `FFence.pop(FFenceLen)`. -/
def fenceLoop (isN isV : Bool) : ℕ → FenceState → Except Err (List Fence)
  | 0, _ => .error .outOfFuel
  | fuel + 1, st =>
    let pLen := st.pFence.length
    let fLen := st.fFence.length
    let canP := isV && decide (fLen < pLen)
    let canF := isN && decide (pLen < fLen)
    if !canP && canF then .error .indexError
    else if canP || (isN && decide (pLen = fLen)) then fenceLoop isN isV fuel st
    else if canF || (isV && decide (fLen = pLen)) then
      match st.pFence.getLast? with
      | none => .error .indexError
      | some p =>
        let X := if 0 > st.fFenceX.length then st.fFenceX ++ [(st.fAchain ∩ h.future p) \
          ((List.range (fLen - 1)).filter (fun i => decide (1 ≤ i))).toFinset.biUnion (fun i => h.future (st.pFence.getD i 0))] else st.fFenceX
        match X.getLast? with
        | none => .error .indexError
        | some last => match it.ord [426] last with
          | [] => fenceLoop isN isV fuel ⟨st.pFence, st.fFence, X, st.fAchain⟩
          | e :: _ => fenceLoop isN isV fuel ⟨st.pFence, st.fFence ++ [e], X.dropLast ++ [last.erase e], st.fAchain⟩
    else fenceLoop isN isV fuel st

/-- `findClosedFences`, causetpermutations.py:295-429, with at most `fuel` rounds of the loop -/
def findClosedFences (fuel : ℕ) (P F : List EId) (PA FA : Finset EId) : Except Err (List Fence) :=
  let valid := validStart P F PA FA
  match startShape h.past valid P F, startShape h.future valid F P with
  | .ok (isN, closedN), .ok (isV, closedV) =>
    if (isN && closedN) || (isV && closedV) then .ok [(P, F, if isN then -1 else 1)]
    else if !isN && !isV then .ok []
    else fenceLoop it h isN isV fuel ⟨P, F, [], FA \ F.toFinset⟩
  | .error x, _ => .error x
  | _, .error x => .error x

/-! ## `AntichainPermutations` and `layeredPermutations` (causetpermutations.py:15-30, 137-170) -/

/-- `np.where(D == np.max(D))` for an `l × l` matrix, row by row -/
def whereMax (D : DMat) (l : ℕ) : List (ℕ × ℕ) :=
  let all := (List.range l).flatMap (fun i => (List.range l).map (fun j => (i, j)))
  all.filter (fun p => all.all (fun q => decide (D q.1 q.2 ≤ D p.1 p.2)))

/-- the loop of `AntichainPermutations`, causetpermutations.py:23-30: the lists that are yielded before it ends or raises; `last` is `ac_perm` -/
def antichainPermLoop (C : Finset EId) (depth : ℕ) (ac : List EId) (D : DMat) (incl : Bool) :
    List (ℕ × ℕ) → Option (List EId) → List (List EId) × Except Err Unit
  | [], _ => ([], .ok ())
  | (i, j) :: ps, last =>
    if incl || decide (i < j) then
      match h.antipaths it C depth (ac.getD i 0) (ac.getD j 0) ac (some D) with
      | .error x => ([], .error x)
      | .ok paths => match paths.getLast?.or last with
        | none => ([], .error .nameError)
        | some p => let r := antichainPermLoop C depth ac D incl ps (some p); (p :: r.1, r.2)
    else antichainPermLoop C depth ac D incl ps last

/-- `AntichainPermutations`, causetpermutations.py:15-30, run to its end -/
def antichainPermutations (C : Finset EId) (depth : ℕ) (antichain : Finset EId) (incl : Bool) : List (List EId) × Except Err Unit :=
  let ac := it.ord [20] antichain
  match h.distanceMatrix it C ac "intersection" true with
  | .error x => ([], .error x)
  | .ok D => if ac = [] then ([], .error .valueError) else antichainPermLoop it h C depth ac D incl (whereMax D ac.length) none

/-- one `next` of a generator inside a generator: an exhausted one raises StopIteration, which becomes RuntimeError (PEP 479) -/
def nextInside (g : List (List EId) × Except Err Unit) : Except Err (List EId × (List (List EId) × Except Err Unit)) := match g with
  | (p :: ps, e) => .ok (p, ps, e)
  | ([], .ok ()) => .error .runtimeError
  | ([], .error x) => .error x

/-- the initialisation of `layeredPermutations`, causetpermutations.py:151-154 -/
def layeredPermInit (C : Finset EId) (depth : ℕ) : List (Finset EId) → Except Err (List (List EId × (List (List EId) × Except Err Unit)))
  | [] => .ok []
  | layer :: ls => match nextInside (h.antichainPermutations it C depth layer false) with
    | .error x => .error x
    | .ok p => match layeredPermInit C depth ls with
      | .error x => .error x
      | .ok r => .ok (p :: r)

/-- the first `next` of `layeredPermutations`, causetpermutations.py:137-158 -/
def layeredPermFirst (C : Finset EId) (depth : ℕ) (eventSet : Option (Finset EId)) : Except Err (List (List EId)) :=
  match h.layered it C (some (eventSet.getD C)) false with
  | .error x => .error x
  | .ok ls => match layeredPermInit it h C depth ls with
    | .error x => .error x
    | .ok r => .ok (r.map Prod.fst)

end Heap

end Causets
