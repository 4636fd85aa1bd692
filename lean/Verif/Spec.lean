import Mathlib.Data.Finset.Card
import Mathlib.Data.List.Chain
import Mathlib.Logic.Relation

/-!
# Model-independent vocabulary

Everything a reader needs to understand the property theorems, besides the names of the modelled API
functions.  Nothing here mentions the model.
-/

namespace Causets

/-- A strict partial order on events. -/
structure StrictOrd (lt : ℕ → ℕ → Prop) : Prop where
  irrefl : ∀ a, ¬ lt a a
  trans : ∀ a b c, lt a b → lt b c → lt a c

/-- `a` is linked to `b` (b covers a): a precedes b and nothing lies strictly between. -/
def Covers (lt : ℕ → ℕ → Prop) (a b : ℕ) : Prop :=
  lt a b ∧ ∀ c, ¬ (lt a c ∧ lt c b)

/-- `p` is a path of links from `a` to `b` (a saturated chain), listed from `a` to `b`. -/
def LinkPath (lt : ℕ → ℕ → Prop) (a b : ℕ) (p : List ℕ) : Prop :=
  p.head? = some a ∧ p.getLast? = some b ∧ p.IsChain (Covers lt)

/-- Two events are causally related (comparable but different). -/
def Related (lt : ℕ → ℕ → Prop) (a b : ℕ) : Prop := lt a b ∨ lt b a

/-- Any two distinct members are related. -/
def IsChainSet (lt : ℕ → ℕ → Prop) (s : Finset ℕ) : Prop :=
  ∀ a ∈ s, ∀ b ∈ s, a ≠ b → Related lt a b

/-- No two members are related. -/
def IsAntichainSet (lt : ℕ → ℕ → Prop) (s : Finset ℕ) : Prop :=
  ∀ a ∈ s, ∀ b ∈ s, ¬ lt a b

/-- A set containing with each event its whole past and future. -/
def Closed (lt : ℕ → ℕ → Prop) (s : Finset ℕ) : Prop :=
  ∀ a ∈ s, ∀ b, Related lt a b → b ∈ s

/-- Order-convex: contains everything between two of its members. -/
def OrdConvex (lt : ℕ → ℕ → Prop) (s : Finset ℕ) : Prop :=
  ∀ a ∈ s, ∀ b ∈ s, ∀ x, lt a x → lt x b → x ∈ s

end Causets
