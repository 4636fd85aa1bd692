import Verif.Lemmas.Queries
import Verif.Spec

/-! # Counting links along a path -/

namespace Causets

/-- a path of exactly `n` links leads from `a` to `b` -/
def Steps (lt : ℕ → ℕ → Prop) : ℕ → ℕ → ℕ → Prop
  | 0, a, b => a = b
  | n + 1, a, b => ∃ x, Covers lt a x ∧ Steps lt n x b

theorem Steps.snoc {lt : ℕ → ℕ → Prop} (n : ℕ) : ∀ (a b : ℕ),
    Steps lt (n + 1) a b ↔ ∃ y, Steps lt n a y ∧ Covers lt y b := by
  induction n with
  | zero =>
    intro a b
    constructor
    · rintro ⟨x, hx, rfl⟩; exact ⟨a, rfl, hx⟩
    · rintro ⟨y, rfl, hy⟩; exact ⟨b, hy, rfl⟩
  | succ n ih =>
    intro a b
    constructor
    · rintro ⟨x, hx, hs⟩
      obtain ⟨y, hy, hyb⟩ := (ih x b).1 hs
      exact ⟨y, ⟨x, hx, hy⟩, hyb⟩
    · rintro ⟨y, ⟨x, hx, hs⟩, hyb⟩
      exact ⟨x, hx, (ih x b).2 ⟨y, hs, hyb⟩⟩

theorem steps_iff_linkPath {lt : ℕ → ℕ → Prop} (n : ℕ) : ∀ (a b : ℕ),
    Steps lt n a b ↔ ∃ p, LinkPath lt a b p ∧ p.length = n + 1 := by
  induction n with
  | zero =>
    intro a b
    constructor
    · rintro rfl
      exact ⟨[a], ⟨rfl, rfl, List.isChain_singleton a⟩, rfl⟩
    · rintro ⟨p, ⟨h1, h2, -⟩, hl⟩
      obtain ⟨x, rfl⟩ := List.length_eq_one_iff.1 (by simpa using hl)
      simp only [List.head?_cons, Option.some.injEq, List.getLast?_singleton] at h1 h2
      exact h1.symm.trans h2
  | succ n ih =>
    intro a b
    constructor
    · rintro ⟨x, hx, hs⟩
      obtain ⟨p, ⟨h1, h2, h3⟩, hl⟩ := (ih x b).1 hs
      cases p with
      | nil => simp at h1
      | cons y p =>
        simp only [List.head?_cons, Option.some.injEq] at h1
        subst h1
        refine ⟨a :: y :: p, ⟨rfl, by simpa using h2, ?_⟩, by simpa using hl⟩
        exact List.isChain_cons_cons.2 ⟨hx, h3⟩
    · rintro ⟨p, ⟨h1, h2, h3⟩, hl⟩
      match p, h1, h2, h3, hl with
      | [], h1, _, _, _ => simp at h1
      | [x], _, _, _, hl => simp at hl
      | x :: y :: p, h1, h2, h3, hl =>
        simp only [List.head?_cons, Option.some.injEq] at h1
        subst h1
        rw [List.isChain_cons_cons] at h3
        refine ⟨y, h3.1, (ih y b).2 ⟨y :: p, ⟨rfl, by simpa using h2, h3.2⟩, by simpa using hl⟩⟩

theorem Steps.le {lt : ℕ → ℕ → Prop} (o : StrictOrd lt) (n : ℕ) : ∀ (a b : ℕ), Steps lt n a b →
    a = b ∨ lt a b := by
  induction n with
  | zero => intro a b hab; exact Or.inl hab
  | succ n ih =>
    rintro a b ⟨x, hx, hs⟩
    rcases ih x b hs with rfl | h1
    · exact Or.inr hx.1
    · exact Or.inr (o.trans _ _ _ hx.1 h1)

end Causets
