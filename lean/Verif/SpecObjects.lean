import Verif.Model.Objects
import Verif.SpecState

/-!
# What properties of set objects mean

The vocabulary of the theorems about references (`Props/Objects.lean`): programs as lists of calls, the set objects that a call may change, arguments that exist, and what it means that a
call with references does the same as the function on values.
-/

namespace Causets

namespace Objs

/-- the set object is an attribute (`_prec`, `_succ`, `_lprec` or `_lsucc`) of an event -/
def IsAttr (o : Objs) (i : ℕ) : Prop := ∃ e f, o.attr e f = some i

/-- a program: calls one after the other -/
def runs (it : Iter) : List Call → Objs → Objs
  | [], o => o
  | c :: cs, o => runs it cs (o.run it c).2

/-- The set object `i` is what the call is meant to change: the causet of `add` and `discard`, or the program changes the set itself. -/
def Call.Changes (i : ℕ) : Call → Prop
  | .add c _ _ => c = i
  | .discard c _ _ _ => c = i
  | .change j _ => j = i
  | _ => False

/-- the set object exists and its elements are existing events -/
def HasEvents (o : Objs) (i : ℕ) : Prop := i < o.nextSet ∧ ∀ x ∈ o.val i, x < o.next

/-- the set object exists and is no attribute of an event, as `_events` of every causet -/
def IsCauset (o : Objs) (c : ℕ) : Prop := c < o.nextSet ∧ ¬ o.IsAttr c

/-- The arguments of the call exist; a causet is not discarded from itself; the program itself does not change the sets that it got from `Past`, `Future`, `LinkPast` or `LinkFuture`. -/
def Fits (o : Objs) : Call → Prop
  | .newEvent _ past future => (∀ i, past = some i → o.HasEvents i) ∧ (∀ i, future = some i → o.HasEvents i)
  | .copy e => e < o.next
  | .pastOf i _ _ => o.HasEvents i
  | .futureOf i _ _ => o.HasEvents i
  | .coneOf i _ _ => o.HasEvents i
  | .newCauset i => o.HasEvents i
  | .merge i j _ => o.HasEvents i ∧ o.HasEvents j
  | .add c _ _ => o.IsCauset c
  | .discard c i isCauset _ => o.IsCauset c ∧ (isCauset = true → i ≠ c)
  | .causetLink c => o.IsCauset c
  | .causetUnlink c => o.IsCauset c
  | .change i _ => o.IsCauset i
  | _ => True

/-- the elements of an argument of `CausetEvent(...)` in the order of iteration -/
def argList (it : Iter) (o : Objs) : Option ℕ → List EId
  | none => []
  | some i => it.ord [] (o.val i)

/-- The call returned the set `s`, and the events are as in `h`. -/
def ReturnsSet (r : Except Err (Option ℕ) × Objs) (s : Finset EId) (h : Heap) : Prop :=
  r.2.abs = h ∧ ∃ k, r.1 = .ok (some k) ∧ r.2.val k = s

/-- The call returned as the function on values did: an exception or a set. -/
def ReturnsAs (r : Except Err (Option ℕ) × Objs) (v : Except Err (Finset EId)) (h : Heap) : Prop := match v with
  | .error x => r.1 = .error x ∧ r.2.abs = h
  | .ok s => ReturnsSet r s h

/-- The call ended as the function on values did (an exception or no result). -/
def EndsAs (r : Except Err (Option ℕ) × Objs) (v : Except Err Unit) (h : Heap) : Prop := r.2.abs = h ∧ r.1 = v.map (fun _ => none)

/-- The outcome of the call with references is the outcome of the function of the model by values (`Model/Event.lean`, `Model/Causet.lean`). -/
def ByValue (it : Iter) (o : Objs) (r : Except Err (Option ℕ) × Objs) : Call → Prop
  | .newEvent l p f => EndsAs r (.ok ()) (o.abs.newEvent it l (argList it o p) (argList it o f)).2
  | .copy e => EndsAs r (.ok ()) (o.abs.copy e).2
  | .disjoin e => EndsAs r (o.abs.disjoin it e).1 (o.abs.disjoin it e).2
  | .link e => EndsAs r (.ok ()) (o.abs.link e)
  | .unlink e => EndsAs r (o.abs.unlink e).1 (o.abs.unlink e).2
  | .past e => e < o.next → ReturnsSet r (o.abs.past e) o.abs
  | .future e => e < o.next → ReturnsSet r (o.abs.future e) o.abs
  | .cone e => ReturnsSet r (o.abs.cone e) o.abs
  | .presentOrPast e => ReturnsSet r (o.abs.presentOrPast e) o.abs
  | .presentOrFuture e => ReturnsSet r (o.abs.presentOrFuture e) o.abs
  | .linkPast e => ReturnsSet r (Causets.linkPast e o.abs).1 (Causets.linkPast e o.abs).2
  | .linkFuture e => ReturnsSet r (Causets.linkFuture e o.abs).1 (Causets.linkFuture e o.abs).2
  | .pastOf i p q => ReturnsSet r (o.abs.pastOf it (o.val i) p q) o.abs
  | .futureOf i p q => ReturnsSet r (o.abs.futureOf it (o.val i) p q) o.abs
  | .coneOf i p q => ReturnsSet r (o.abs.coneOf it (o.val i) p q) o.abs
  | .newCauset i => ReturnsAs r (o.abs.causetInit it (o.val i)) o.abs
  | .merge i j d => ReturnsAs r (Causets.merge it (o.val i) (o.val j) d o.abs).1 (Causets.merge it (o.val i) (o.val j) d o.abs).2
  | .add c i u => EndsAs r (Causets.causetAdd it (o.val c) (o.val i) u o.abs).2.1 (Causets.causetAdd it (o.val c) (o.val i) u o.abs).2.2 ∧
      r.2.val c = (Causets.causetAdd it (o.val c) (o.val i) u o.abs).1
  | .discard c i _ u => EndsAs r (Causets.causetDiscard it (o.val c) (o.val i) u o.abs).2.1 (Causets.causetDiscard it (o.val c) (o.val i) u o.abs).2.2 ∧
      r.2.val c = (Causets.causetDiscard it (o.val c) (o.val i) u o.abs).1
  | .causetLink c => EndsAs r (Causets.causetLink it (o.val c) o.abs).1 (Causets.causetLink it (o.val c) o.abs).2
  | .causetUnlink c => EndsAs r (Causets.causetUnlink it (o.val c) o.abs).1 (Causets.causetUnlink it (o.val c) o.abs).2
  | .newSet s => ReturnsSet r s o.abs
  | .change i s => EndsAs r (.ok ()) o.abs ∧ r.2.val i = s

end Objs
end Causets
