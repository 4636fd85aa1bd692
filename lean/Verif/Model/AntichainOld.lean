import Verif.Model.Permutations

/-!
# `AntichainPermutations_old` (causetpermutations.py:33-134)

Index arrays are lists of natural numbers.  The `print` in line 54 is not modelled.
-/

namespace Causets

/-- the `for i` loop that finds the closest index, causetpermutations.py:63-69, over the indices that are not in `subP`; the state is `p` (unbound: `none`) and `minvalue` -/
def oldPick (D : DMat) (c : ℕ) (subP : List ℕ) : List ℕ → Option ℕ × ℤ → Except Err (Option ℕ × ℤ)
  | [], st => .ok st
  | i :: is, (p, mv) => match minSel (fun s => D s i) subP with
    | none => .error .valueError
    | some m => oldPick D c subP is (if m < mv ∨ m = c then (some i, m) else (p, mv))

/-- `min_indices`, causetpermutations.py:71-77 -/
def oldMinIndices (D : DMat) (c : ℕ) (subP : List ℕ) (p : ℕ) (mv : ℤ) : List ℕ :=
  if mv = c ∧ D (subP.headD 0) p = c then [subP.length - 1]
  else if mv = c ∧ D (subP.getLastD 0) p = c then [0]
  else (List.range subP.length).filter (fun k => decide (D (subP.getD k 0) p = mv))

section
variable (lt : EId → EId → Bool) (ev : List EId) (D : DMat) (c : ℕ)

/-- the loop over the past layer, causetpermutations.py:84-90: `some b` if it was left with `break` (`b`: the index was appended), `none` if it ran to its end; `has` is `p_has_past_in_layer` -/
def oldScan (p i : ℕ) (subP : List ℕ) : Bool → List EId → Except Err (Option Bool)
  | _, [] => .ok none
  | has, e :: es =>
    let has' := has || lt e (ev.getD p 0)
    match subP[i]? with
    | none => .error .indexError
    | some k => if lt e (ev.getD k 0) then .ok (some has') else oldScan p i subP has' es

/-- the body of the loops over `offset` and `i`, causetpermutations.py:81-96 -/
def oldTry (pastLayer : List EId) (p : ℕ) (subP : List ℕ) (offset i : ℕ) (pIndices : List ℕ) : Except Err (List ℕ) :=
  if i ∈ pIndices then .ok pIndices
  else match oldScan lt ev p i subP false (if offset = 0 then pastLayer else pastLayer.reverse) with
    | .error x => .error x
    | .ok (some has) => .ok (if has then pIndices ++ [i] else pIndices)
    | .ok none =>
      if subP.length = 1 ∧ offset = 1 then .ok (pIndices ++ [i])
      else if (i = 0 ∨ D (subP.getD (i - 1) 0) p < c) ∧ (subP.length ≤ i ∨ D (subP.getD i 0) p < c) then .ok (pIndices ++ [i])
      else .ok pIndices

/-- the loop over `i`, causetpermutations.py:80-96 -/
def oldTryAll (pastLayer : List EId) (p : ℕ) (subP : List ℕ) (offset : ℕ) : List ℕ → List ℕ → Except Err (List ℕ)
  | [], pIndices => .ok pIndices
  | i :: is, pIndices => match oldTry lt ev D c pastLayer p subP offset (i + offset) pIndices with
    | .error x => .error x
    | .ok q => oldTryAll pastLayer p subP offset is q

/-- `p_indices`, causetpermutations.py:78-96 -/
def oldIndices (pastLayer : List EId) (p : ℕ) (subP minIndices : List ℕ) : Except Err (List ℕ) :=
  match oldTryAll lt ev D c pastLayer p subP 0 minIndices [] with
  | .error x => .error x
  | .ok q => oldTryAll lt ev D c pastLayer p subP 1 minIndices q

/-- `__extend`, causetpermutations.py:57-115, for at most `fuel` rounds of the `while` loop: what the generator yields, and how it ends.  `p` keeps its value from the round before. -/
def oldExtend (pastLayer : List EId) : ℕ → Option ℕ → List ℕ → List (List ℕ) × Except Err Unit
  | 0, _, _ => ([], .error .outOfFuel)
  | fuel + 1, prev, subP =>
    if subP.length < c then
      match oldPick D c subP ((List.range c).filter (fun i => decide (i ∉ subP))) (prev, (c : ℤ)) with
      | .error x => ([], .error x)
      | .ok (none, _) => ([], .error .nameError)
      | .ok (some p, mv) => match oldIndices lt ev D c pastLayer p subP (oldMinIndices D c subP p mv) with
        | .error x => ([], .error x)
        | .ok q => if 1 < q.length then (q.map (fun i => subP.insertIdx i p), .ok ())
          else match q with
            | [i] => oldExtend pastLayer fuel (some p) (subP.insertIdx i p)
            | _ => oldExtend pastLayer fuel (some p) subP
    else ([subP], .ok ())

end

/-- the main loop, causetpermutations.py:128-134, for what one generator yields; `rec` is the same for the generator of an extension -/
def oldYields (c : ℕ) (rec : List ℕ → List (List ℕ) × Except Err Unit) (ending : Except Err Unit) : List (List ℕ) → List (List ℕ) × Except Err Unit
  | [] => ([], ending)
  | P :: Ps => match (if P.length = c then ([P], .ok ()) else rec P) with
    | (r, .error x) => (r, .error x)
    | (r, .ok ()) => let s := oldYields c rec ending Ps; (r ++ s.1, s.2)

/-- the stack `P_extensions`, causetpermutations.py:125-134: `depth` generators at most -/
def oldRun (c : ℕ) (ext : List ℕ → List (List ℕ) × Except Err Unit) : ℕ → List ℕ → List (List ℕ) × Except Err Unit
  | 0, _ => ([], .error .outOfFuel)
  | depth + 1, P => oldYields c (oldRun c ext depth) (ext P).2 (ext P).1

namespace Heap

variable (it : Iter) (as : ArgSort) (h : Heap)

/-- the start index, causetpermutations.py:118-124 -/
def oldStart : ℕ → List EId → List ℕ × ℤ → List ℕ
  | _, [], st => st.1
  | i, e :: es, (P, cc) => oldStart (i + 1) es (if (h.coneCard e : ℤ) > cc then ([i], (h.coneCard e : ℤ)) else (P, cc))

/-- the matrix `D`, causetpermutations.py:45-53 -/
def oldMatrix (C eventSet : Finset EId) (ev : List EId) (c : ℕ) : DMat := fun i j =>
  if i = j then 0
  else
    let d : ℤ := (h.smallestIntervalCard C (ev.getD (min i j) 0) (ev.getD (max i j) 0) (some eventSet) none : ℤ) - 1
    if d < 0 then (c : ℤ) else d

/-- `AntichainPermutations_old`, causetpermutations.py:33-134, with at most `fuel` rounds of the loop of `__extend`: the tuples that are yielded, and how the generator ends -/
def antichainPermOld (C eventSet : Finset EId) (pastLayer : List EId) (fuel : ℕ) : List (List EId) × Except Err Unit :=
  match h.sortedByLabels it as C (some eventSet) false with
  | .error x => ([], .error x)
  | .ok ev =>
    let c := eventSet.card
    let D := h.oldMatrix C eventSet ev c
    let r := oldYields c (oldRun c (oldExtend h.lt ev D c pastLayer fuel none) (c + 1)) (.ok ()) [oldStart h 0 ev ([], -1)]
    (r.1.map (fun P => P.map (fun i => ev.getD i 0)), r.2)

end Heap

end Causets
