import Verif.Lemmas.Disjoin
import Verif.Lemmas.Merge
import Verif.Lemmas.Queries
import Verif.Model.CausetLinks

/-!
# Histories of API calls

`Reachable h`: the state `h` arises from the state without events by some finite sequence of API calls.
Constructor calls with both `past` and `future` must give related events (the proviso of C01), `merge` must get
disjoint sets the first of which contains the pasts of its events and the second the futures (two causets
with no common event satisfy this).  Calls that raise an exception are included; the state is what they
leave behind.
-/

namespace Causets

open Heap

inductive Reachable : Heap → Prop
  | start : Reachable Heap.empty
  | new (h : Heap) (it : Iter) (l : Option Label) (P F : List EId) : Reachable h →
      (∀ p ∈ P, h.Exists p) → (∀ f ∈ F, h.Exists f) → (∀ p ∈ P, ∀ f ∈ F, h.Lt p f) →
      Reachable (h.newEvent it l P F).2
  | link (h : Heap) (e : EId) : Reachable h → Reachable (h.link e)
  | unlink (h : Heap) (e : EId) : Reachable h → Reachable (h.unlink e).2
  | linkPast (h : Heap) (e : EId) : Reachable h → Reachable (linkPast e |>.run h).2
  | linkFuture (h : Heap) (e : EId) : Reachable h → Reachable (linkFuture e |>.run h).2
  | linkCone (h : Heap) (e : EId) : Reachable h → Reachable (linkCone e |>.run h).2
  | isPastLink (h : Heap) (a b : EId) : Reachable h → Reachable (isPastLink a b |>.run h).2
  | isFutureLink (h : Heap) (a b : EId) : Reachable h → Reachable (isFutureLink a b |>.run h).2
  | disjoin (h : Heap) (it : Iter) (e : EId) : Reachable h → Reachable (h.disjoin it e).2
  | merge (h : Heap) (it : Iter) (P F : Finset EId) : Reachable h →
      (∀ p ∈ P, h.Exists p) → (∀ f ∈ F, h.Exists f) →
      (∀ p ∈ P, ∀ x, h.Lt x p → x ∈ P) → (∀ f ∈ F, ∀ x, h.Lt f x → x ∈ F) → Disjoint P F →
      Reachable (merge it P F false h).2
  | causetLink (h : Heap) (it : Iter) (C : Finset EId) : Reachable h →
      Reachable (causetLink it C h).2
  | causetUnlink (h : Heap) (it : Iter) (C : Finset EId) : Reachable h →
      Reachable (causetUnlink it C h).2
  | add (h : Heap) (it : Iter) (C s : Finset EId) (u : Bool) : Reachable h →
      Reachable (causetAdd it C s u h).2.2
  | discard (h : Heap) (it : Iter) (C s : Finset EId) (u : Bool) : Reachable h →
      Reachable (causetDiscard it C s u h).2.2

/-- Histories of constructor, link, unlink and query calls only (no `disjoin`, no `merge`, no
`Causet.link`). -/
inductive LinkReachable : Heap → Prop
  | start : LinkReachable Heap.empty
  | new (h : Heap) (it : Iter) (l : Option Label) (P F : List EId) : LinkReachable h →
      (∀ p ∈ P, h.Exists p) → (∀ f ∈ F, h.Exists f) → (∀ p ∈ P, ∀ f ∈ F, h.Lt p f) →
      LinkReachable (h.newEvent it l P F).2
  | link (h : Heap) (e : EId) : LinkReachable h → LinkReachable (h.link e)
  | unlink (h : Heap) (e : EId) : LinkReachable h → LinkReachable (h.unlink e).2
  | linkPast (h : Heap) (e : EId) : LinkReachable h → LinkReachable (linkPast e |>.run h).2
  | linkFuture (h : Heap) (e : EId) : LinkReachable h → LinkReachable (linkFuture e |>.run h).2
  | linkCone (h : Heap) (e : EId) : LinkReachable h → LinkReachable (linkCone e |>.run h).2
  | isPastLink (h : Heap) (a b : EId) : LinkReachable h →
      LinkReachable (isPastLink a b |>.run h).2
  | isFutureLink (h : Heap) (a b : EId) : LinkReachable h →
      LinkReachable (isFutureLink a b |>.run h).2
  | causetUnlink (h : Heap) (it : Iter) (C : Finset EId) : LinkReachable h →
      LinkReachable (causetUnlink it C h).2
  | add (h : Heap) (it : Iter) (C s : Finset EId) (u : Bool) : LinkReachable h →
      LinkReachable (causetAdd it C s u h).2.2
  | discard (h : Heap) (it : Iter) (C s : Finset EId) (u : Bool) : LinkReachable h →
      LinkReachable (causetDiscard it C s u h).2.2

/-! ## Concrete states for the examples -/

/-- 0 < 1 < 2 -/
def exChain3 : Heap :=
  let h1 := (Heap.empty.newEvent Iter.asc (some (.int 1)) [] []).2
  let h2 := (h1.newEvent Iter.asc (some (.int 2)) [0] []).2
  (h2.newEvent Iter.asc (some (.int 3)) [1] []).2

theorem exChain3_reach : LinkReachable exChain3 := by
  refine .new _ _ _ _ _ (.new _ _ _ _ _ (.new _ _ _ _ _ .start ?_ ?_ ?_) ?_ ?_ ?_) ?_ ?_ ?_ <;>
    simp [Heap.Exists, Heap.newEvent_fst] <;> decide

/-- 0 < 1, 2 < 3 -/
def exDiamond : Heap :=
  let h1 := (Heap.empty.newEvent Iter.asc (some (.int 1)) [] []).2
  let h2 := (h1.newEvent Iter.asc (some (.int 2)) [0] []).2
  let h3 := (h2.newEvent Iter.asc (some (.int 3)) [0] []).2
  (h3.newEvent Iter.asc (some (.int 4)) [1, 2] []).2

theorem exDiamond_reach : LinkReachable exDiamond := by
  refine .new _ _ _ _ _ (.new _ _ _ _ _ (.new _ _ _ _ _ (.new _ _ _ _ _ .start ?_ ?_ ?_) ?_ ?_ ?_)
    ?_ ?_ ?_) ?_ ?_ ?_ <;>
    simp [Heap.Exists, Heap.newEvent_fst] <;> decide

end Causets
