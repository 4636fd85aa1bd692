import Verif.Model.Event

/-!
# Printing: `str` and `repr` of events and causets

The text of the coordinates (`f'{self._coordinates}'`, the printing of a Python list of numbers) is a parameter: `coords e` is
`none` if the attribute `_coordinates` has been deleted (`disembed`), otherwise its text.  `cls` is `self.__class__.__name__`.
-/

namespace Causets

/-- the truth value of the attribute `Label` (`if self.Label`): false for `None`, `0` and the empty string -/
def Label.truthy : Option Label → Bool
  | none => false
  | some (.int z) => decide (z ≠ 0)
  | some (.str s) => decide (s ≠ "")

/-- the label in the text of an event, causetevent.py:143-144 and 151-152: integers as they are, everything else between quotes (not escaped) -/
def Label.text : Label → String
  | .int z => toString z
  | .str s => "'" ++ s ++ "'"

/-- `__str__`, causetevent.py:141-146 -/
def eventStr (h : Heap) (e : EId) : String :=
  match h.label e with
  | some l => if Label.truthy (some l) then "#" ++ l.text else "#Event"
  | none => "#Event"

/-- the eight templates of `__repr__`, causetevent.py:154-185 (`P`: the joined past, empty if there is none; `l`: `None` or the text of the
label; `c`: the text of the coordinates, `none` if reading them raises the AttributeError) -/
def reprTemplate (cls P : String) (l c : Option String) : String :=
  match c with
  | some c =>
    if P ≠ "" then
      match l with
      | some l => cls ++ "(past={" ++ P ++ "}, " ++ ("label=" ++ l ++ ", ") ++ ("coordinates=" ++ c ++ ")")
      | none => cls ++ "(past={" ++ P ++ "}, " ++ ("coordinates=" ++ c ++ ")")
    else
      match l with
      | some l => cls ++ ("(label=" ++ l ++ ", ") ++ ("coordinates=" ++ c ++ ")")
      | none => cls ++ ("(coordinates=" ++ c ++ ")")
  | none =>
    if P ≠ "" then
      match l with
      | some l => cls ++ "(past={" ++ P ++ "}, " ++ ("label=" ++ l ++ ")")
      | none => cls ++ "(past={" ++ P ++ "})"
    else
      match l with
      | some l => cls ++ ("(label=" ++ l ++ ")")
      | none => cls ++ "()"

/-- `l` in `__repr__`, causetevent.py:150-153 -/
def reprLabel (h : Heap) (e : EId) : Option String :=
  match h.label e with
  | some l => if Label.truthy (some l) then some l.text else none
  | none => none

/-- `__repr__` of an event, causetevent.py:148-185: the loop over the set `LinkPast` is context `[148, e]` -/
def eventRepr (it : Iter) (cls : String) (coords : EId → Option String) (e : EId) : StateM Heap String := do
  let lp ← linkPast e
  let h ← get
  let P := ", ".intercalate ((it.ord [148, e] lp).map (eventStr h))
  return reprTemplate cls P (reprLabel h e) (coords e)

/-- `Causet.__repr__`, causet.py:37-38: `repr` of the Python set `_events`, that is the texts of its members in iteration order between braces, and
`set()` for the empty set -/
def causetRepr (it : Iter) (cls : String) (coords : EId → Option String) (C : Finset EId) : StateM Heap String := do
  if C = ∅ then return "set()"
  else
    let ts ← (it.ord [37] C).mapM (eventRepr it cls coords)
    return "{" ++ ", ".intercalate ts ++ "}"

end Causets
