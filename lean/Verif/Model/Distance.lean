import Verif.Model.Causet

/-!
# `DistanceMatrix` and `Antipaths` (causet.py:993-1091)

A numpy integer matrix is a function of two indices; only the entries below the length `l` of the antichain list are ever read or
returned.  numpy's `int` (int64) is modelled by ℤ: the entries are at most the number of events.
-/

namespace Causets

/-- an `l × l` matrix of integers -/
abbrev DMat := ℕ → ℕ → ℤ

/-- `D[i, j], D[j, i] = d, d`, causet.py:1034, 1048 -/
def setSym (D : DMat) (i j : ℕ) (d : ℤ) : DMat :=
  fun x y => if (x = i ∧ y = j) ∨ (x = j ∧ y = i) then d else D x y

/-- `itertools.combinations(range(l), 2)`, causet.py:1027 -/
def pairsBelow (l : ℕ) : List (ℕ × ℕ) :=
  (List.range l).flatMap (fun i => ((List.range l).filter (fun j => i < j)).map (fun j => (i, j)))

/-- `np.min` of a selection (`none`: numpy raises ValueError for an empty selection) -/
def minSel (f : ℕ → ℤ) : List ℕ → Option ℤ
  | [] => none
  | m :: ms => match minSel f ms with
    | none => some (f m)
    | some x => some (min (f m) x)

namespace Heap

variable (it : Iter) (h : Heap)

/-- the first `for` loop, causet.py:1027-1034 -/
def distNear (C : Finset EId) (ac : List EId) (ziczac : Bool) (slice : Finset EId) (D : DMat) : DMat :=
  (pairsBelow ac.length).foldl (fun D p =>
    if D p.1 p.2 < 1 then
      let d : ℤ := (h.smallestIntervalCard C (ac.getD p.1 0) (ac.getD p.2 0) (some slice) (some ac.toFinset) : ℤ) - 1
      setSym D p.1 p.2 (if ziczac then min 1 d else d)
    else D) D

end Heap

/-- the loop over `j`, causet.py:1042-1051, with `disconnected_count` in `c`; the Boolean says that the function has returned -/
def distLoopJ (l i : ℕ) (iConnected : ℕ → Bool) : List ℕ → DMat → ℤ → DMat × ℤ × Bool
  | [], D, c => (D, c, false)
  | j :: js, D, c =>
    match minSel (fun m => D i m + D j m) ((List.range l).filter (fun m => iConnected m && decide (D j m = 1))) with
    | none => distLoopJ l i iConnected js D c
    | some d =>
      let D' := setSym D i j d
      if c - 2 = 0 then (D', c - 2, true) else distLoopJ l i iConnected js D' (c - 2)

/-- the loop over `i`, causet.py:1039-1051 -/
def distLoopI (l k : ℕ) : List ℕ → DMat → ℤ → DMat × ℤ × Bool
  | [], D, c => (D, c, false)
  | i :: is, D, c =>
    match distLoopJ l i (fun m => decide (D i m = k)) ((List.range l).filter (fun j => D i j < 0)) D c with
    | (D', c', true) => (D', c', true)
    | (D', c', false) => distLoopI l k is D' c'

/-- the loop over `k`, causet.py:1038-1051 -/
def distLoopK (l : ℕ) : List ℕ → DMat → ℤ → DMat × ℤ × Bool
  | [], D, c => (D, c, false)
  | k :: ks, D, c =>
    match distLoopI l k (List.range l) D c with
    | (D', c', true) => (D', c', true)
    | (D', c', false) => distLoopK l ks D' c'

/-- `np.sum(D < 0)`, causet.py:1037 -/
def negCount (l : ℕ) (D : DMat) : ℤ :=
  (((List.range l).flatMap (fun i => (List.range l).map (fun j => (i, j)))).filter (fun p => D p.1 p.2 < 0)).length

namespace Heap

variable (it : Iter) (h : Heap)

/-- the `while` loop, causet.py:1025-1053, with a bound on the number of rounds -/
def distWhile (C : Finset EId) (ac : List EId) (ziczac recursive : Bool) :
    ℕ → Finset EId → Finset EId → DMat → Except Err DMat
  | 0, _, _, _ => .error .outOfFuel
  | fuel + 1, slice, thicker, D =>
    if slice.card < thicker.card then
      let D1 := h.distNear C ac ziczac thicker D
      if !recursive then .ok D1
      else
        match distLoopK ac.length ((List.range ac.length).filter (fun k => 1 ≤ k)) D1 (negCount ac.length D1) with
        | (D2, _, true) => .ok D2
        | (D2, _, false) =>
          distWhile C ac ziczac recursive fuel thicker (h.layers it thicker (-1) (some 1)) D2
    else .ok D

/-- `DistanceMatrix`, causet.py:993-1053 (the antichain is a list; the number of rounds of the `while` loop is bounded by the number of
events, see C40) -/
def distanceMatrix (C : Finset EId) (ac : List EId) (counting : String) (recursive : Bool) : Except Err DMat :=
  if !(counting == "ziczac") && counting != "intersection" then .error .valueError
  else h.distWhile it C ac (counting == "ziczac") recursive (h.next + ac.length + 1) ac.toFinset
    (h.layers it ac.toFinset (-1) (some 1)) (fun _ _ => 0)

end Heap

/-- `Antipaths_find`, causet.py:1078-1088, on indices, run to its end; `l` is the length of the antichain list, the first argument the available
recursion depth -/
def antipathsFind (D : DMat) (l b : ℕ) : ℕ → ℕ → Except Err (List (List ℕ))
  | 0, _ => .error .recursionError
  | fuel + 1, e =>
    if D e b = 1 then .ok [[e, b]]
    else
      match minSel (D e) ((List.range l).filter (fun m => D e m > 0)) with
      | none => .error .valueError
      | some near =>
        let nb := (List.range l).filter (fun m => D e m = near)
        match minSel (D b) nb with
        | none => .error .valueError
        | some close =>
          match (nb.filter (fun m => D b m = close)).mapM (antipathsFind D l b fuel) with
          | .error x => .error x
          | .ok pss => .ok (pss.flatten.map (fun p => e :: p))

/-- `Antipaths`, causet.py:1055-1091, run to its end (the Python function is a generator); `depth` is the recursion limit -/
def Heap.antipaths (it : Iter) (h : Heap) (C : Finset EId) (depth : ℕ) (a b : EId) (along : List EId) (distances : Option DMat) :
    Except Err (List (List EId)) :=
  if a = b ∧ a ∈ along then .ok [[a]]
  else if ¬ (h.isSpacelikeTo a b = true ∧ a ∈ along ∧ b ∈ along) then .ok []
  else
    match (match distances with
      | some D => Except.ok D
      | none => h.distanceMatrix it C along "ziczac" true) with
    | .error x => .error x
    | .ok D =>
      if D (along.idxOf a) (along.idxOf b) = -1 then .ok []
      else
        match antipathsFind D along.length (along.idxOf b) depth (along.idxOf a) with
        | .error x => .error x
        | .ok ps => .ok (ps.map (fun p => p.map (fun i => along.getD i 0)))

end Causets
