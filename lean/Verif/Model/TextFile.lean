import Verif.Model.Causet

/-!
# Text files of causal matrices (causet.py:208-221, 325-331)

A file is its list of characters.  `np.savetxt` and `np.genfromtxt` are modelled by their documentation, without further keyword arguments; opening, writing and reading the file itself is assumed to succeed.
-/

namespace Causets

/-- `str.split(d)` for a single character -/
def splitChar (d : Char) : List Char → List (List Char)
  | [] => [[]]
  | c :: cs => if c = d then [] :: splitChar d cs else match splitChar d cs with
    | [] => [[c]]
    | w :: ws => (c :: w) :: ws

/-- `d.join(...)` for a single character -/
def joinChar (d : Char) : List (List Char) → List Char
  | [] => []
  | [w] => w
  | w :: ws => w ++ d :: joinChar d ws

/-- `np.savetxt(filename, C, fmt='%.0f', delimiter=',')` for a matrix of 0 and 1, causet.py:331: every row ends with a new line -/
def savetxt (M : List (List Bool)) : List Char :=
  M.flatMap (fun row => joinChar ',' (row.map (fun b => if b then ['1'] else ['0'])) ++ ['\n'])

/-- `saveAsCSV`, causet.py:325-331: the content of the file -/
def Heap.saveAsCSV (it : Iter) (as : ArgSort) (h : Heap) (C : Finset EId) : Except Err (List Char) :=
  match h.pastMatrix it as C none with
  | .error x => .error x
  | .ok M => .ok (savetxt M)

/-- the conversion of a field to an integer by `genfromtxt` (dtype `int`; a field that is no number is read as -1) -/
structure ReadInt where
  run : List Char → ℤ
  zero : run ['0'] = 0
  one : run ['1'] = 1

/-- the rows read by `np.genfromtxt(filename, dtype=int, delimiter=d)`, causet.py:215-216: comments and empty lines are skipped -/
def genRows (rd : ReadInt) (d : Char) (text : List Char) : List (List ℤ) :=
  (((splitChar '\n' text).map (fun line => line.takeWhile (fun c => c ≠ '#'))).filter (fun line => line ≠ [])).map (fun line => (splitChar d line).map rd.run)

/-- `genfromtxt(...)` and `astype(bool)`, causet.py:215-217; rows of different lengths raise ValueError; axes of length 1 are removed (`none`: the array has fewer than two axes) -/
def genfromtxt (rd : ReadInt) (d : Char) (text : List Char) : Except Err (Option BMat) :=
  match genRows rd d text with
  | [] => .ok none
  | row :: rows =>
    if rows.all (fun r => r.length = row.length) then
      if 1 < (row :: rows).length ∧ 1 < row.length then
        .ok (some ⟨(row :: rows).length, row.length, fun i j => decide ((((row :: rows).getD i []).getD j 0) ≠ 0)⟩)
      else .ok none
    else .error .valueError

/-- `FromTextFile`, causet.py:208-221 (an array with fewer than two axes raises IndexError at `C.shape[0]` or `C.shape[1]`, causet.py:177-178) -/
def fromTextFile (it : Iter) (rd : ReadInt) (text : List Char) (isPastMatrix : Bool) (d : Char) (h : Heap) : Except Err (Finset EId) × Heap :=
  match genfromtxt rd d text with
  | .error x => (.error x, h)
  | .ok none => (.error .indexError, h)
  | .ok (some C) => if isPastMatrix then fromPastMatrix it C h else fromFutureMatrix it C h

end Causets
