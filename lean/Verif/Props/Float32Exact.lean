import Verif.Props.Float32Sprinkle

/-! # C115 — exact causal sets in single precision -/

namespace Causets

variable {rnd rndS : ℝ → ℝ}

/-- **Specification.** No two of the points are close to the light cone of each other: with `E` as in `C115_accuracy`, either the first is in the past of the second by a margin, or it is
outside of the light cone by a margin (in terms of the squares). -/
def ClearSet32 (dim : ℕ) (eps : ℝ) (S : Set Point) : Prop := ∀ x ∈ S, ∀ y ∈ S, x 0 ≤ y 0 →
  let d2 := ∑ i ∈ Finset.Ico 1 dim, (y i - x i) ^ 2
  let E := (4 * dim + 12) / 2 ^ 24 * (d2 + eps + dim / 2 ^ 126)
  (d2 ≤ (y 0 - x 0) ^ 2 ∧ d2 + E ≤ (y 0 - x 0) ^ 2 + eps) ∨ (y 0 - x 0) ^ 2 + eps + E < d2

/-- **C115, exact answers.** If no two points are close to the light cone of each other, the answers are the exact causal order of Minkowski spacetime. -/
theorem C115_exact {p q : ℕ} {emin fmin : ℤ} (hp : 24 ≤ p) (hq : 24 ≤ q) (he1 : emin ≤ -149) (he2 : fmin ≤ -149) (hr : IsRoundingTo (FloatNum p emin) rnd)
    (hS : IsRoundingTo (FloatNum q fmin) rndS) (eps : ℝ) (heps : 0 ≤ eps) (dim : ℕ) (hd : 3 ≤ dim) (hd2 : dim ≤ 100000) (S : Set Point)
    (hf : ∀ x ∈ S, x 0 ∈ FloatNum p emin) (hg : ClearSet32 dim eps S) :
    (∀ x ∈ S, ∀ y ∈ S, ((causalityMinkMix rnd rndS eps dim x y).1 = true ↔ MinkLe dim x y) ∧
      ((causalityMinkMix rnd rndS eps dim x y).2 = true ↔ MinkLe dim y x ∧ ¬ MinkLe dim x y)) ∧
    IsCausalOrder (causalityMinkMix rnd rndS eps dim) S := by
  have key : ∀ x ∈ S, ∀ y ∈ S, ((causalityMinkMix rnd rndS eps dim x y).1 = true ↔ MinkLe dim x y) := by
    intro x hx y hy
    obtain ⟨h1, h2⟩ := C115_accuracy hp hq he1 he2 hr hS eps heps dim hd hd2 x y (hf x hx) (hf y hy)
    rw [minkLe_iff]
    constructor
    · intro h
      obtain ⟨ht, hle⟩ := h2 h
      refine ⟨by linarith, ?_⟩
      rcases hg x hx y hy ht with hc | hc
      · exact hc.1
      · exact absurd hle (not_le.2 hc)
    · rintro ⟨ht, hle⟩
      refine h1 (by linarith) ?_
      rcases hg x hx y hy (by linarith) with hc | hc
      · exact hc.2
      · exfalso
        have hn : 0 ≤ ∑ i ∈ Finset.Ico 1 dim, (y i - x i) ^ 2 := Finset.sum_nonneg fun i _ => sq_nonneg _
        have hE : 0 ≤ (4 * (dim : ℝ) + 12) / 2 ^ 24 * ((∑ i ∈ Finset.Ico 1 dim, (y i - x i) ^ 2) + eps + dim / 2 ^ 126) := by positivity
        unfold spaceSq at hle
        linarith
  have after : ∀ x ∈ S, ∀ y ∈ S, ((causalityMinkMix rnd rndS eps dim x y).2 = true ↔
      (causalityMinkMix rnd rndS eps dim y x).1 = true ∧ (causalityMinkMix rnd rndS eps dim x y).1 = false) := fun x hx y hy =>
    (C115_directions (by omega) hr rndS eps dim x y (hf x hx) (hf y hy)).2.1
  refine ⟨fun x hx y hy => ⟨key x hx y hy, ?_⟩, ⟨fun x hx y hy z hz h1 h2 => ?_, after⟩⟩
  · rw [after x hx y hy, key y hy x hx, ← key x hx y hy, Bool.not_eq_true]
  · rw [key _ hx _ hy] at h1
    rw [key _ hy _ hz] at h2
    rw [key _ hx _ hz]
    exact minkLe_trans h1 h2

/-- **C115, causal sets.** If no two points are close to the light cone of each other, `create` with coordinates in single precision succeeds and gives exactly the causal set of the
points: for events at points that do not precede each other mutually, `<` is the exact causal order; the state is consistent and linked. -/
theorem C115_create {p q : ℕ} {emin fmin : ℤ} (hp : 24 ≤ p) (hq : 24 ≤ q) (he1 : emin ≤ -149) (he2 : fmin ≤ -149) (hr : IsRoundingTo (FloatNum p emin) rnd)
    (hS : IsRoundingTo (FloatNum q fmin) rndS) (eps : ℝ) (heps : 0 ≤ eps) (dim : ℕ) (hd : 3 ≤ dim) (hd2 : dim ≤ 100000) (S : Set Point)
    (hf : ∀ x ∈ S, x 0 ∈ FloatNum p emin) (hg : ClearSet32 dim eps S) (it : Iter) (coords : List Point) (hcoords : ∀ x ∈ coords, x ∈ S)
    (fmt : Option (ℕ → String)) (w : World Point) (v : w.heap.Valid) (lx : w.heap.LinksExact) :
    let r := create (causalityMinkMix rnd rndS eps dim) it ∅ coords fmt true w
    r.2.2.1 = .ok () ∧ r.2.2.2.heap.Valid ∧ r.2.2.2.heap.LinksExact ∧ Closed r.2.2.2.heap.Lt r.1 ∧ (∀ e ∈ r.1, r.2.2.2.heap.hasBeenLinked e = true) ∧
      (∀ e ∈ r.1, ∃ x ∈ S, r.2.2.2.crd e = some x) ∧
      ((∀ a ∈ r.1, ∀ b ∈ r.1, ∀ x y, r.2.2.2.crd a = some x → r.2.2.2.crd b = some y → a ≠ b → ¬ (MinkLe dim x y ∧ MinkLe dim y x)) →
        ∀ a ∈ r.1, ∀ b ∈ r.1, ∀ x y, r.2.2.2.crd a = some x → r.2.2.2.crd b = some y → (r.2.2.2.heap.Lt a b ↔ a ≠ b ∧ MinkLe dim x y)) := by
  intro r
  obtain ⟨hk, hc⟩ := C115_exact hp hq he1 he2 hr hS eps heps dim hd hd2 S hf hg
  obtain ⟨h1, h2, h3, -, h5, h6, h7, h8, -⟩ := C42_create (causalityMinkMix rnd rndS eps dim) S hc it ∅ coords fmt w v lx (by simp) (by intro x hx; simp at hx) (by simp) hcoords
  refine ⟨h1, h2, h3, h5, h6, h7, fun hne a ha b hb x y hx hy => ?_⟩
  have hS : ∀ e ∈ r.1, ∀ x, r.2.2.2.crd e = some x → x ∈ S := by
    intro e hE x hx
    obtain ⟨x', hx', hx2⟩ := h7 e hE
    have : x = x' := by
      have : some x = some x' := hx.symm.trans hx2
      simpa using this
    rw [this]; exact hx'
  have := h8 (fun a ha b hb x y hx hy hab => by
    rw [(hk x (hS a ha x hx) y (hS b hb y hy)).1, (hk y (hS b hb y hy) x (hS a ha x hx)).1]
    exact hne a ha b hb x y hx hy hab) a ha b hb x y hx hy
  rw [(hk x (hS a ha x hx) y (hS b hb y hy)).1] at this
  exact this

/-- **C115, the tolerance.** The tolerance of the code rounded to `float32` (NumPy 2) or `float64` (NumPy 1) satisfies the assumptions of the theorems above. -/
theorem C115_tolerance (h : IsRoundingTo Binary32 rnd ∨ IsRoundingTo Binary64 rnd) : 1 / 10 ^ 12 / 2 ≤ rnd causalityEps ∧ rnd causalityEps ≤ 2 / 10 ^ 12 := by
  have hF : ∃ p emin, 24 ≤ p ∧ emin ≤ -149 ∧ IsRoundingTo (FloatNum p emin) rnd := by
    rcases h with h | h
    · exact ⟨24, -149, le_rfl, le_rfl, h⟩
    · exact ⟨53, -1074, by norm_num, by norm_num, h⟩
  obtain ⟨p, emin, hp, he, hr⟩ := hF
  have h1 := floatNum_err (by omega) hr causalityEps
  have h2 : (2 : ℝ) ^ (-(p : ℤ)) ≤ 2 ^ (-24 : ℤ) := zpow_le_zpow_right₀ (by norm_num) (by omega)
  have h3 : (2 : ℝ) ^ (emin - 1) ≤ 2 ^ (-150 : ℤ) := zpow_le_zpow_right₀ (by norm_num) (by omega)
  have z24 : (2 : ℝ) ^ (-24 : ℤ) = 1 / 2 ^ 24 := by rw [zpow_neg, one_div]; norm_cast
  have z150 : (2 : ℝ) ^ (-150 : ℤ) = 1 / 2 ^ 150 := by rw [zpow_neg, one_div]; norm_cast
  rw [z24] at h2
  rw [z150] at h3
  have e : |causalityEps| = 1 / 10 ^ 12 := by unfold causalityEps; rw [abs_of_pos (by positivity)]
  have e' : causalityEps = 1 / 10 ^ 12 := rfl
  rw [e, e'] at h1
  have h4 : (2 : ℝ) ^ (-(p : ℤ)) * (1 / 10 ^ 12) ≤ 1 / 2 ^ 24 * (1 / 10 ^ 12) := mul_le_mul_of_nonneg_right h2 (by positivity)
  have h5 : (1 : ℝ) / 2 ^ 24 * (1 / 10 ^ 12) + 1 / 2 ^ 150 ≤ 1 / 10 ^ 12 / 2 := by norm_num
  have h6 := abs_le.1 (h1.trans ((add_le_add h4 h3).trans h5))
  rw [e']
  constructor <;> linarith [h6.1, h6.2]

/-- the assumptions of `C115_exact` and `C115_create` are met, with IEEE rounding to `float32` and the tolerance of the code, by two related points and one that is unrelated to both -/
example : ∃ S : Set Point, point3 0 0 0 ∈ S ∧ point3 2 1 1 ∈ S ∧ point3 1 5 0 ∈ S ∧ (∀ x ∈ S, x 0 ∈ FloatNum 24 (-149)) ∧ ClearSet32 3 (rnd32 causalityEps) S ∧
    0 ≤ rnd32 causalityEps := by
  have hr := C115_ieee.1
  obtain ⟨b1, b2⟩ := C115_tolerance (Or.inl hr)
  have hS : ∀ x ∈ ({point3 0 0 0, point3 2 1 1, point3 1 5 0} : Set Point), x = point3 0 0 0 ∨ x = point3 2 1 1 ∨ x = point3 1 5 0 := fun x hx => by simpa using hx
  have hmem : ∀ n : ℤ, |n| ≤ 2 ^ 24 → (n : ℝ) ∈ FloatNum 24 (-149) := fun n hn => by
    have h : (n : ℝ) ∈ Binary32 := by simpa using div_mem_binary32 0 (by norm_num) hn
    exact h
  have b0 : 0 ≤ rnd32 causalityEps := le_trans (by positivity) b1
  refine ⟨{point3 0 0 0, point3 2 1 1, point3 1 5 0}, by simp, by simp, by simp, ?_, ?_, b0⟩
  · intro x hx
    rcases hS x hx with rfl | rfl | rfl
    · simpa [point3] using hmem 0 (by norm_num)
    · simpa [point3] using hmem 2 (by norm_num)
    · simpa [point3] using hmem 1 (by norm_num)
  · intro x hx y hy hxy
    dsimp only
    have hd : ∑ i ∈ Finset.Ico 1 3, (y i - x i) ^ 2 = (y 1 - x 1) ^ 2 + (y 2 - x 2) ^ 2 := by
      rw [show Finset.Ico 1 3 = {1, 2} by rfl, Finset.sum_pair (by norm_num)]
    rw [hd]
    generalize rnd32 causalityEps = eps at *
    have c1 : (2 : ℝ) / 10 ^ 12 ≤ 1 / 1000 := by norm_num
    have c2 : (1 : ℝ) / 10 ^ 12 / 2 ≥ 1 / 2 ^ 42 := by norm_num
    rcases hS x hx with rfl | rfl | rfl <;> rcases hS y hy with rfl | rfl | rfl <;>
      simp only [point3, if_true, if_false, one_ne_zero, OfNat.ofNat_ne_zero, OfNat.ofNat_ne_one] at hxy ⊢ <;>
      first
        | (exfalso; linarith)
        | (left; constructor <;> norm_num <;> linarith)
        | (right; norm_num; linarith)

end Causets
