import Verif.Model.CausetLinks
import Verif.Model.Distance

/-! # Generators, resumed step by step

`Paths`, `Antipaths` and `findAny` are generator functions: the call runs nothing, every `next` runs the body up to the following `yield`.  In between the program can do anything else.
The definitions of `Model/CausetLinks.lean`, `Model/Distance.lean` and `Model/Causet.lean` run these generators to their end at once; here they are resumed one step at a time, and at every `yield` another part of
the program acts on the memory. -/

namespace Causets

/-- A suspended generator: it is at its end, raises, yields a value and then continues, or reads (and, for the link memory, writes) the event objects and continues.  The order in which the sets that are created
in a step are iterated over is given by an `Iter` of that step. -/
inductive Gen (α : Type) : Type
  | done
  | raise (x : Err)
  | yield (a : α) (rest : Gen α)
  | ask (upd : Iter → Heap → Heap) (next : Iter → Heap → Gen α)

namespace Gen

variable {α β : Type}

/-- a piece of the body without `yield` -/
def query (m : Iter → StateM Heap β) (k : Iter → β → Gen α) : Gen α :=
  .ask (fun it h => ((m it).run h).2) (fun it h => k it ((m it).run h).1)

/-- `for p in ps: yield p`, then `k` -/
def yieldAll (ps : List α) (k : Gen α) : Gen α := ps.foldr .yield k

/-- The program asks for values until the generator ends: what it got, the exception if there was one, the final memory.  `env n` is what the program does to the event objects after it received its `n`-th value
(counted from the start value), `its n` the set order of the step after. -/
def run (its : ℕ → Iter) (env : ℕ → Heap → Heap) : ℕ → Gen α → Heap → List α × Option Err × Heap
  | _, .done, h => ([], none, h)
  | _, .raise x, h => ([], some x, h)
  | n, .yield a rest, h => (a :: (run its env (n + 1) rest (env n h)).1, (run its env (n + 1) rest (env n h)).2)
  | n, .ask upd next, h => run its env n (next (its n) h) (upd (its n) h)

end Gen

/-- `Paths_find`, causet.py:889-914, with `find_min` and `find_max` false (then the nonlocal `min_len`, `max_len` never change), resumed step by step; `k` is what follows the loop that runs this generator.  The sets
`perimetral` and `internal` (lines 893-894) are local to the call: nothing changes them between the steps. -/
def pathsFindGen (b : EId) (bLinked : Finset EId) (mn mx : ℤ) : ℕ → List EId → EId → ℤ → Gen (List EId) → Gen (List EId)
  | 0, _, _, _, _ => .raise .recursionError
  | fuel + 1, path, a, l, k =>
    .query (fun _ => do let lf ← linkFuture a; pure (lf ∩ (← get).past b)) (fun it aLinked =>
      let perimetral := aLinked ∩ bLinked
      let internal := aLinked \ perimetral
      let rest := if l = mx then k else
        (it.ord (1 :: path) internal).foldr (fun e k => pathsFindGen b bLinked mn mx fuel (path ++ [e]) e (l + 1) k) k
      if mn ≤ l ∧ perimetral.card > 0 then
        .yieldAll ((it.ord (0 :: path) perimetral).map (fun e => path ++ [e, b])) rest
      else rest)

/-- the body of `Paths` after the bounds have been determined, causet.py:877-929, resumed step by step.  In the extremal modes `list(Paths_find(..))` (line 918) runs to its end before the first `yield`. -/
def pathsBodyGen (a b : EId) (findMin findMax : Bool) (mn mx : ℤ) : Gen (List EId) :=
  .query (fun _ => do pure ((← get).le a b)) (fun _ le =>
    if !le then .done
    else if a = b then .yieldAll (if mn ≤ 1 ∧ (1 ≤ mx ∨ mx = -1) then [[a]] else []) .done
    else .query (fun _ => isFutureLink a b) (fun _ link =>
      if link then .yieldAll (if mn ≤ 2 ∧ (2 ≤ mx ∨ mx = -1) then [[a, b]] else []) .done
      else if 3 ≤ mx ∨ mx = -1 then
        .query (fun _ => do let lp ← linkPast b; pure ((← get).future a ∩ lp, (← get).next)) (fun _ r =>
          if findMin || findMax then
            .query (fun it => pathsFind it b r.1 findMin findMax (r.2 + 1) [a] a 3 mn mx) (fun _ out =>
              match out with
              | .error x => .raise x
              | .ok (ps, mn', mx') => .yieldAll (ps.filter (fun p => ((p.length : ℕ) : ℤ) = if findMin then mx' else mn')) .done)
          else pathsFindGen b r.1 mn mx (r.2 + 1) [a] a 3 .done)
      else .done))

/-- `Paths`, causet.py:847-929, as the generator that a call returns.  The exceptions of lines 872-875 are raised by the first `next`, not by the call. -/
def pathsGen (a b : EId) : LenArg → Gen (List EId)
  | .str s => pathsBodyGen a b (s == "min") (s == "max" || s == "timegeo") 0 (-1)
  | .int z => pathsBodyGen a b false false z z
  | .list [] => .raise .indexError
  | .list (x :: xs) => pathsBodyGen a b false false x ((x :: xs).getLastD x)
  | .other => .raise .valueError

/-- `Antipaths_find`, causet.py:1078-1088, resumed step by step, on indices: `pre` puts the events of the callers in front (line 1088).  It reads only the matrix and the list, which nobody changes (a matrix given
by the caller is assumed not to be written to). -/
def antipathsFindGen (D : DMat) (l b : ℕ) (pre : List ℕ → List EId) : ℕ → ℕ → List ℕ → Gen (List EId) → Gen (List EId)
  | 0, _, _, _ => .raise .recursionError
  | fuel + 1, e, front, k =>
    if D e b = 1 then .yield (pre (front ++ [e, b])) k
    else
      match minSel (D e) ((List.range l).filter (fun m => D e m > 0)) with
      | none => .raise .valueError
      | some near =>
        let nb := (List.range l).filter (fun m => D e m = near)
        match minSel (D b) nb with
        | none => .raise .valueError
        | some close => (nb.filter (fun m => D b m = close)).foldr (fun m k => antipathsFindGen D l b pre fuel m (front ++ [e]) k) k

/-- `Antipaths`, causet.py:1055-1091, as the generator that a call returns.  After `yield [a]` (line 1067) the test of line 1068 is made when the generator is resumed. -/
def antipathsGen (C : Finset EId) (depth : ℕ) (a b : EId) (along : List EId) (distances : Option DMat) : Gen (List EId) :=
  let main : Gen (List EId) := .ask (fun _ h => h) (fun it h =>
    if ¬ (h.isSpacelikeTo a b = true ∧ a ∈ along ∧ b ∈ along) then .done
    else
      match (match distances with
        | some D => Except.ok D
        | none => h.distanceMatrix it C along "ziczac" true) with
      | .error x => .raise x
      | .ok D =>
        if D (along.idxOf a) (along.idxOf b) = -1 then .done
        else antipathsFindGen D along.length (along.idxOf b) (fun p => p.map (fun i => along.getD i 0)) depth (along.idxOf a) [] .done)
  if a = b ∧ a ∈ along then .yield [a] main else main

/-- what one `next` on a generator over a set does: `iter(self._events)` (causet.py:34-35) and the loop of `findAny` (causet.py:374-380).  CPython's set iterator compares the size of the set with the size it had
when the iteration began before it looks for the next element, and raises RuntimeError if they differ.  A step gets the remaining events, the size at the start, and the state of the causet and of the labels
at this moment; the result is the event and the events that remain, nothing at the end, or the exception. -/
def setIterNext (size : ℕ) (keep : EId → Bool) (C : Finset EId) (rest : List EId) : Except Err (Option (EId × List EId)) :=
  if C.card ≠ size then .error .runtimeError
  else match rest.dropWhile (fun e => !keep e) with
    | [] => .ok none
    | e :: es => .ok (some (e, es))

/-- A loop `for e in C` or `for e in C.findAny(..)`, causet.py:34-35, 374-380: before every step the body of the loop (or anything else in the program) may have changed the causet and the labels.  `env n` is the
causet and the test `e.Label in labels` (constantly true for `for e in C`) when the loop asks for the next event after `n` rounds.  The size-preserving replacement of events during the loop is not modelled faithfully: CPython does not
notice it and may or may not meet the new events. -/
def setIterLoop (size : ℕ) (env : ℕ → Finset EId × (EId → Bool)) : ℕ → ℕ → List EId → List EId × Option Err
  | 0, _, _ => ([], none)
  | fuel + 1, n, rest =>
    match setIterNext size (env n).2 (env n).1 rest with
    | .error x => ([], some x)
    | .ok none => ([], none)
    | .ok (some (e, es)) => (e :: (setIterLoop size env fuel (n + 1) es).1, (setIterLoop size env fuel (n + 1) es).2)

/-- `for e in C` / `for e in C.findAny(..)` from the first `next` on; the number of rounds is bounded by the number of events -/
def causetLoop (it : Iter) (env : ℕ → Finset EId × (EId → Bool)) : List EId × Option Err :=
  setIterLoop (env 0).1.card env ((env 0).1.card + 1) 0 (it.ord [376] (env 0).1)

end Causets
