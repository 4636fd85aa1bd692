import Mathlib.Data.Finset.Card
import Mathlib.Data.Finset.Union
import Mathlib.Data.Finset.Lattice.Fold
import Mathlib.Data.ENat.Basic

/-!
# The heap of events, set iteration orders, exceptions
-/

namespace Causets

/-- Identity of a `CausetEvent` object (Python objects compare by identity: the class defines no
`__eq__`/`__hash__`, causetevent.py:13-533). -/
macro "EId" : term => `(Nat)

/-- Labels used by the library: integers and strings (causetevent.py:28; the code accepts `Any`, every
constructor in /repo passes an int or a str or None). -/
inductive Label
  | int (z : ℤ)
  | str (s : String)
  deriving DecidableEq, Repr

/-- Python exceptions raised by the modelled code.  `outOfFuel` is not a Python exception: it marks that
a modelled `while` loop did not finish within the given number of rounds; `recursionError` is the
same for a modelled recursion (Python's recursion limit). -/
inductive Err
  | attributeError
  | valueError
  | typeError
  | indexError
  | keyError
  | overflowError
  | zeroDivisionError
  | notImplementedError
  | recursionError
  | nameError
  | runtimeError
  | outOfFuel
  deriving DecidableEq, Repr

/-- Iteration order of Python sets.  Python leaves it unspecified, so it is an arbitrary function of a
calling context (a list of numbers identifying the loop) and of the set. -/
structure Iter where
  ord : List ℕ → Finset ℕ → List ℕ
  nodup : ∀ c s, (ord c s).Nodup
  mem : ∀ c s x, x ∈ ord c s ↔ x ∈ s

/-- All event objects of the running program: a structure of arrays over identities.
Fields of `CausetEvent` (causetevent.py:28-32): `Label`, `_prec`, `_succ`, `_lprec`, `_lsucc`; for the
last two `none` means "attribute does not exist" (they are only created by `link`,
causetevent.py:208-211, and removed by `unlink`, causetevent.py:217-218).
`next` is the first identity not yet used.  `_coordinates` and `_position` are in
`Verif/Model/Embedding.lean`: no function on the causal order reads them. -/
structure Heap where
  next : ℕ
  label : EId → Option Label
  prec : EId → Finset EId
  succ : EId → Finset EId
  lprec : EId → Option (Finset EId)
  lsucc : EId → Option (Finset EId)

/-- The state before any event has been created. -/
def Heap.empty : Heap where
  next := 0
  label := fun _ => none
  prec := fun _ => ∅
  succ := fun _ => ∅
  lprec := fun _ => none
  lsucc := fun _ => none

/-- A concrete iteration order (ascending identities), used in examples only. -/
def Iter.asc : Iter where
  ord := fun _ s => (List.range (s.sup id + 1)).filter (· ∈ s)
  nodup := fun _ _ => List.nodup_range.filter _
  mem := fun _ s x => by
    simp only [List.mem_filter, List.mem_range, decide_eq_true_eq, and_iff_right_iff_imp]
    intro hx
    have := Finset.le_sup (f := id) hx
    simp only [id] at this
    omega

/-- A second concrete iteration order (descending identities), used in examples only. -/
def Iter.desc : Iter where
  ord := fun c s => (Iter.asc.ord c s).reverse
  nodup := fun c s => List.nodup_reverse.mpr (Iter.asc.nodup c s)
  mem := fun c s x => by simp [Iter.asc.mem]

end Causets
