import Verif.Props.FloatCausality

/-! # C104 — exact causal sets in floating point arithmetic, and the limits -/

namespace Causets

variable {rnd : ℝ → ℝ}

/-- **Specification.** No two of the points are outside of the light cone by at most `2 eps` (in terms of the squares, except in two dimensions): either causal, or clearly not. -/
def FlatSpacetime.ClearSet (M : FlatSpacetime) (eps : ℝ) (S : Set Point) : Prop := ∀ x ∈ S, ∀ y ∈ S, x 0 ≤ y 0 →
  if M.dim = 2 then ¬ (y 0 - x 0 < Real.sqrt (M.distSq x y) ∧ Real.sqrt (M.distSq x y) ≤ (y 0 - x 0) + 2 * eps)
  else ¬ ((y 0 - x 0) ^ 2 < M.distSq x y ∧ M.distSq x y ≤ (y 0 - x 0) ^ 2 + 2 * eps)

/-- the assumptions of `C104_accuracy` for all pairs of points in a set -/
structure FlatSpacetime.Moderate (M : FlatSpacetime) (eps : ℝ) (S : Set Point) : Prop where
  float : ∀ x ∈ S, x 0 ∈ Binary64
  domain : ∀ x ∈ S, ∀ y ∈ S, InDomain M.dim M.periods x y
  size : ∀ x ∈ S, ∀ y ∈ S, (4 * M.dim + 12) / 2 ^ 53 * M.scale x y ≤ eps

/-- **C104, exact answers.** If the points are of moderate size and no two of them are within `2 eps` outside of the light cone, rounding has no effect at all: the answer is the exact causal
order of Minkowski spacetime (or the torus). -/
theorem C104_exact (hr : IsRounding rnd) (sq : ℝ → ℝ) (hsq : ∀ z, 0 ≤ sq z ∧ |sq z - z ^ 2| ≤ 2 * ulp * (z ^ 2 + 1)) (eps : ℝ) (he : eps ≤ 1) (M : FlatSpacetime) (hd1 : 1 ≤ M.dim)
    (S : Set Point) (hm : M.Moderate eps S) (hg : M.ClearSet eps S) :
    (∀ x ∈ S, ∀ y ∈ S, ((M.causalityFl rnd sq eps x y).1 = true ↔ TorusLe M.dim M.periods x y) ∧
      ((M.causalityFl rnd sq eps x y).2 = true ↔ TorusLe M.dim M.periods y x ∧ ¬ TorusLe M.dim M.periods x y)) ∧
    IsCausalOrder (M.causalityFl rnd sq eps) S := by
  have key : ∀ x ∈ S, ∀ y ∈ S, ((M.causalityFl rnd sq eps x y).1 = true ↔ TorusLe M.dim M.periods x y) := by
    intro x hx y hy
    obtain ⟨h1, h2⟩ := C104_accuracy hr sq hsq eps M hd1 x y (hm.float x hx) (hm.float y hy) (hm.domain x hx y hy) he (hm.size x hx y hy)
    refine ⟨fun h => ?_, h1⟩
    obtain ⟨ht, hd⟩ := h2 h
    have hc := hg x hx y hy ht
    rw [torusLe_iff (hm.domain x hx y hy)]
    refine ⟨by linarith, ?_⟩
    show M.distSq x y ≤ _
    by_cases hdim : M.dim = 2
    · rw [if_pos hdim] at hd hc
      have : Real.sqrt (M.distSq x y) ≤ y 0 - x 0 := by
        by_contra hh
        exact hc ⟨not_le.1 hh, hd⟩
      exact (Real.sqrt_le_left (by linarith)).1 this
    · rw [if_neg hdim] at hd hc
      by_contra hh
      exact hc ⟨not_le.1 hh, hd⟩
  have after : ∀ x ∈ S, ∀ y ∈ S, ((M.causalityFl rnd sq eps x y).2 = true ↔
      (M.causalityFl rnd sq eps y x).1 = true ∧ (M.causalityFl rnd sq eps x y).1 = false) := fun x hx y hy =>
    (C104_directions hr sq eps M x y (hm.float x hx) (hm.float y hy)).2.1
  refine ⟨fun x hx y hy => ⟨key x hx y hy, ?_⟩, ⟨fun x hx y hy z hz h1 h2 => ?_, after⟩⟩
  · rw [after x hx y hy, key y hy x hx, ← key x hx y hy, Bool.not_eq_true]
  · rw [key _ hx _ hy] at h1
    rw [key _ hy _ hz] at h2
    rw [key _ hx _ hz]
    exact torusLe_trans h1 h2

/-- **C104, causal sets.** Under the same assumptions `create` with the causality function computed in floating point arithmetic succeeds and gives exactly the causal set of the points: for
events at points that do not precede each other mutually, `<` is the exact causal order; the state is consistent and linked. -/
theorem C104_create (hr : IsRounding rnd) (sq : ℝ → ℝ) (hsq : ∀ z, 0 ≤ sq z ∧ |sq z - z ^ 2| ≤ 2 * ulp * (z ^ 2 + 1)) (eps : ℝ) (he : eps ≤ 1) (M : FlatSpacetime) (hd1 : 1 ≤ M.dim)
    (S : Set Point) (hm : M.Moderate eps S) (hg : M.ClearSet eps S) (it : Iter) (coords : List Point) (hcoords : ∀ x ∈ coords, x ∈ S)
    (fmt : Option (ℕ → String)) (w : World Point) (v : w.heap.Valid) (lx : w.heap.LinksExact) :
    let r := create (M.causalityFl rnd sq eps) it ∅ coords fmt true w
    r.2.2.1 = .ok () ∧ r.2.2.2.heap.Valid ∧ r.2.2.2.heap.LinksExact ∧ Closed r.2.2.2.heap.Lt r.1 ∧ (∀ e ∈ r.1, r.2.2.2.heap.hasBeenLinked e = true) ∧
      (∀ e ∈ r.1, ∃ x ∈ S, r.2.2.2.crd e = some x) ∧
      ((∀ a ∈ r.1, ∀ b ∈ r.1, ∀ x y, r.2.2.2.crd a = some x → r.2.2.2.crd b = some y → a ≠ b →
          ¬ (TorusLe M.dim M.periods x y ∧ TorusLe M.dim M.periods y x)) →
        ∀ a ∈ r.1, ∀ b ∈ r.1, ∀ x y, r.2.2.2.crd a = some x → r.2.2.2.crd b = some y →
          (r.2.2.2.heap.Lt a b ↔ a ≠ b ∧ TorusLe M.dim M.periods x y)) := by
  intro r
  obtain ⟨hk, hc⟩ := C104_exact hr sq hsq eps he M hd1 S hm hg
  obtain ⟨h1, h2, h3, -, h5, h6, h7, h8, -⟩ := C42_create (M.causalityFl rnd sq eps) S hc it ∅ coords fmt w v lx (by simp) (by intro x hx; simp at hx) (by simp) hcoords
  refine ⟨h1, h2, h3, h5, h6, h7, fun hne a ha b hb x y hx hy => ?_⟩
  have hS : ∀ e ∈ r.1, ∀ x, r.2.2.2.crd e = some x → x ∈ S := by
    intro e hE x hx
    obtain ⟨x', hx', hx2⟩ := h7 e hE
    have : x = x' := by
      have : some x = some x' := hx.symm.trans hx2
      simpa using this
    rw [this]; exact hx'
  have := h8 (fun a ha b hb x y hx hy hab => by
    rw [(hk x (hS a ha x hx) y (hS b hb y hy)).1, (hk y (hS b hb y hy) x (hS a ha x hx)).1]
    exact hne a ha b hb x y hx hy hab) a ha b hb x y hx hy
  rw [(hk x (hS a ha x hx) y (hS b hb y hy)).1] at this
  exact this

/-! ## the numbers of the code -/

/-- the tolerance of the code as a binary64 number -/
theorem eps_bounds (hr : IsRounding rnd) : (999 / 1000) * (1 / 10 ^ 12) ≤ rnd causalityEps ∧ rnd causalityEps ≤ 1001 / 1000 * (1 / 10 ^ 12) := by
  have h := hr.err causalityEps
  have h2 : (2 : ℝ) ^ (-1075 : ℤ) ≤ 2 ^ (-100 : ℤ) := zpow_le_zpow_right₀ (by norm_num) (by norm_num)
  have h3 : (2 : ℝ) ^ (-100 : ℤ) = 1 / 2 ^ 100 := by rw [zpow_neg, one_div]; norm_cast
  rw [h3] at h2
  have h' := abs_le.1 h
  have e : |causalityEps| = 1 / 10 ^ 12 := by unfold causalityEps; rw [abs_of_pos (by positivity)]
  have e' : causalityEps = 1 / 10 ^ 12 := rfl
  rw [e, e'] at h'
  unfold ulp at h'
  rw [e']
  constructor
  · have : (1 : ℝ) / 2 ^ 53 * (1 / 10 ^ 12) + 1 / 2 ^ 100 ≤ 1 / 1000 * (1 / 10 ^ 12) := by norm_num
    linarith [h'.1]
  · have : (1 : ℝ) / 2 ^ 53 * (1 / 10 ^ 12) + 1 / 2 ^ 100 ≤ 1 / 1000 * (1 / 10 ^ 12) := by norm_num
    linarith [h'.2]

/-- **C104, the numbers.** In flat spacetime of at most four dimensions without periods, with the tolerance of the code (`1e-12`, rounded to binary64), all sets of points whose spatial
coordinates differ by at most 7 and whose times are binary64 numbers are of moderate size. -/
theorem C104_numbers (hr : IsRounding rnd) (M : FlatSpacetime) (hd : M.dim ≤ 4) (hp : M.isPeriodic = false) (S : Set Point) (hf : ∀ x ∈ S, x 0 ∈ Binary64)
    (hS : ∀ x ∈ S, ∀ y ∈ S, ∀ i, 1 ≤ i → i < M.dim → |y i - x i| ≤ 7) : rnd causalityEps ≤ 1 ∧ M.Moderate (rnd causalityEps) S := by
  have hper : ∀ i, M.periods i = 0 := fun i => by unfold FlatSpacetime.periods; simp [hp]
  obtain ⟨b1, b2⟩ := eps_bounds hr
  refine ⟨b2.trans (by norm_num), hf, fun x _ y _ i _ _ h => absurd h (by rw [hper]; exact lt_irrefl _), fun x hx y hy => ?_⟩
  have h1 : M.scale x y ≤ 301 := by
    unfold FlatSpacetime.scale
    have : ∑ i ∈ Finset.Ico 1 M.dim, 2 * ((if M.periods (i - 1) > 0 then M.periods (i - 1) else y i - x i) ^ 2 + 1) ≤ ∑ i ∈ Finset.Ico 1 M.dim, 100 := by
      refine Finset.sum_le_sum fun i hi => ?_
      rw [Finset.mem_Ico] at hi
      rw [hper, if_neg (lt_irrefl _)]
      have := abs_le.1 (hS x hx y hy i hi.1 hi.2)
      nlinarith
    rw [Finset.sum_const, Nat.card_Ico, nsmul_eq_mul] at this
    have h3 : ((M.dim - 1 : ℕ) : ℝ) ≤ 3 := by exact_mod_cast (by omega : M.dim - 1 ≤ 3)
    linarith
  have h2 : (M.dim : ℝ) ≤ 4 := by exact_mod_cast hd
  have h0 : (0 : ℝ) ≤ M.dim := Nat.cast_nonneg _
  have hs := scale_pos M x y
  calc (4 * (M.dim : ℝ) + 12) / 2 ^ 53 * M.scale x y ≤ 28 / 2 ^ 53 * 301 :=
        mul_le_mul (div_le_div_of_nonneg_right (by linarith) (by positivity)) h1 (by linarith) (by positivity)
    _ ≤ 999 / 1000 * (1 / 10 ^ 12) := by norm_num
    _ ≤ rnd causalityEps := b1

/-! ## the limit: large coordinates -/

/-- numbers near the middle of a rounding interval -/
theorem IsRounding.eq_of_near (hr : IsRounding rnd) {n e : ℤ} {z : ℝ} (he : -1074 ≤ e) (h1 : 2 ^ 52 < n) (h2 : n < 2 ^ 53) (hz : |z - n * 2 ^ e| < 2 ^ e / 2) :
    rnd z = n * 2 ^ e := by
  have hp : (0 : ℝ) < 2 ^ e := zpow_pos (by norm_num) _
  have hf : (n : ℝ) * 2 ^ e ∈ Binary64 := ⟨n, e, by rw [abs_of_pos (by omega)]; exact h2, he, rfl⟩
  have h3 := hr.nearest z _ hf
  have h4 : |rnd z - n * 2 ^ e| < 2 ^ e := by
    have := abs_sub_le (rnd z) z (n * 2 ^ e)
    rw [abs_sub_comm (n * 2 ^ e : ℝ) z] at h3
    linarith
  obtain ⟨m, g, hm, hg, hmg⟩ := hr.mem z
  by_cases hge : e ≤ g
  · obtain ⟨k, hk⟩ := Int.eq_ofNat_of_zero_le (sub_nonneg.2 hge)
    have e1 : (m : ℝ) * 2 ^ g = ((m * 2 ^ k : ℤ) : ℝ) * 2 ^ e := by
      have : g = (k : ℤ) + e := by omega
      rw [this, zpow_add₀ (by norm_num), zpow_natCast]
      push_cast; ring
    rw [hmg, e1] at h4 ⊢
    rw [← sub_mul, abs_mul, abs_of_pos hp] at h4
    have h5 : |((m * 2 ^ k : ℤ) : ℝ) - n| < 1 := by nlinarith
    have h6 : |m * 2 ^ k - n| < 1 := by exact_mod_cast h5
    have := Int.abs_lt_one_iff.1 h6
    rw [show m * 2 ^ k = n by omega]
  · exfalso
    push Not at hge
    have h5 : |rnd z| ≤ 2 ^ 52 * 2 ^ e := by
      rw [hmg, abs_mul, abs_of_pos (zpow_pos (by norm_num : (0 : ℝ) < 2) g)]
      have h6 : |(m : ℝ)| ≤ 2 ^ 53 := by
        rw [← Int.cast_abs]; exact_mod_cast hm.le
      have h7 : (2 : ℝ) ^ g ≤ 2 ^ (e - 1) := zpow_le_zpow_right₀ (by norm_num) (by omega)
      have h8 : (2 : ℝ) ^ (e - 1) = 2 ^ e / 2 := by rw [zpow_sub₀ (by norm_num)]; norm_num
      calc |(m : ℝ)| * 2 ^ g ≤ 2 ^ 53 * 2 ^ (e - 1) := mul_le_mul h6 h7 (zpow_pos (by norm_num) _).le (by positivity)
        _ = 2 ^ 52 * 2 ^ e := by rw [h8]; ring
    have h6 : ((2 : ℝ) ^ 52 + 1) ≤ n := by exact_mod_cast h1
    have h7 := (abs_lt.1 h4).1
    have h8 := (abs_le.1 h5).2
    nlinarith

/-- a point with three coordinates -/
def point3 (t a b : ℝ) : Point := fun i => if i = 0 then t else if i = 1 then a else if i = 2 then b else 0

/-- **C104 (the claim without a bound on the size is false).** In three dimensions there are two points with binary64 coordinates of size 129 such that the first is in the past of the second
(exactly on its light cone), but the causality function with the tolerance of the code, computed in floating point arithmetic (for any rounding to nearest), answers that they are
unrelated — in both directions. -/
theorem C104_large_refuted (hr : IsRounding rnd) (sq : ℝ → ℝ) : ∃ x y : Point, (∀ i, x i ∈ Binary64 ∧ y i ∈ Binary64 ∧ |x i| ≤ 129 ∧ |y i| ≤ 129) ∧ MinkLe 3 x y ∧
    FlatSpacetime.causalityFl rnd sq (rnd causalityEps) ⟨3, false, none⟩ x y = (false, false) ∧
    FlatSpacetime.causalityFl rnd sq (rnd causalityEps) ⟨3, false, none⟩ y x = (false, false) := by
  have z23 : (2 : ℝ) ^ (-23 : ℤ) = 1 / 2 ^ 23 := by rw [zpow_neg, one_div]; norm_cast
  have z0 : (0 : ℝ) ∈ Binary64 := ⟨0, 0, by norm_num, by norm_num, by norm_num⟩
  have mem : ∀ n : ℤ, |n| < 2 ^ 53 → (n : ℝ) / 2 ^ 23 ∈ Binary64 := fun n hn => ⟨n, -23, hn, by norm_num, by rw [z23]; ring⟩
  have mt := mem 1075489013 (by norm_num)
  have ma := mem 1071208275 (by norm_num)
  have mb := mem 95861612 (by norm_num)
  push_cast at mt ma mb
  have m39 : (2 : ℝ) ^ (-39 : ℤ) = 1 / 2 ^ 39 := by rw [zpow_neg, one_div]; norm_cast
  have m38 : (2 : ℝ) ^ (-38 : ℤ) = 1 / 2 ^ 38 := by rw [zpow_neg, one_div]; norm_cast
  have m44 : (2 : ℝ) ^ (-44 : ℤ) = 1 / 2 ^ 44 := by rw [zpow_neg, one_div]; norm_cast
  -- the rounded square of the time difference
  have hT : rnd ((1075489013 / 2 ^ 23) ^ 2) = (4518268035483258 : ℤ) * (2 : ℝ) ^ (-38 : ℤ) := by
    refine hr.eq_of_near (by norm_num) (by norm_num) (by norm_num) ?_
    rw [m38, abs_lt]; norm_num
  have hA : rnd ((1071208275 / 2 ^ 23) ^ 2) = (8964743503347466 : ℤ) * (2 : ℝ) ^ (-39 : ℤ) := by
    refine hr.eq_of_near (by norm_num) (by norm_num) (by norm_num) ?_
    rw [m39, abs_lt]; norm_num
  have hB : rnd ((95861612 / 2 ^ 23) ^ 2) = (2297362163809636 : ℤ) * (2 : ℝ) ^ (-44 : ℤ) := by
    have : ((95861612 : ℝ) / 2 ^ 23) ^ 2 = (2297362163809636 : ℤ) * (2 : ℝ) ^ (-44 : ℤ) := by rw [m44]; norm_num
    rw [this]
    exact hr.fix ⟨_, _, by norm_num, by norm_num, rfl⟩
  have hS : rnd ((8964743503347466 : ℤ) * (2 : ℝ) ^ (-39 : ℤ) + (2297362163809636 : ℤ) * (2 : ℝ) ^ (-44 : ℤ)) = (4518268035483259 : ℤ) * (2 : ℝ) ^ (-38 : ℤ) := by
    refine hr.eq_of_near (by norm_num) (by norm_num) (by norm_num) ?_
    rw [m38, m39, m44, abs_lt]; norm_num
  obtain ⟨b1, b2⟩ := eps_bounds hr
  have hSe : rnd ((4518268035483259 : ℤ) * (2 : ℝ) ^ (-38 : ℤ) - rnd causalityEps) = (4518268035483259 : ℤ) * (2 : ℝ) ^ (-38 : ℤ) := by
    refine hr.eq_of_near (by norm_num) (by norm_num) (by norm_num) ?_
    have : (4518268035483259 : ℤ) * (2 : ℝ) ^ (-38 : ℤ) - rnd causalityEps - (4518268035483259 : ℤ) * (2 : ℝ) ^ (-38 : ℤ) = - rnd causalityEps := by ring
    rw [this, abs_neg, abs_of_nonneg (le_trans (by norm_num) b1), m38]
    refine lt_of_le_of_lt b2 (by norm_num)
  have hlt : ¬ (rnd ((4518268035483259 : ℤ) * (2 : ℝ) ^ (-38 : ℤ) - rnd causalityEps) ≤ rnd ((1075489013 / 2 ^ 23) ^ 2)) := by
    rw [hSe, hT, m38]; norm_num
  have hsum : flSum rnd [rnd ((1071208275 / 2 ^ 23) ^ 2), rnd ((95861612 / 2 ^ 23) ^ 2)] = (4518268035483259 : ℤ) * (2 : ℝ) ^ (-38 : ℤ) := by
    have e0 : flSum rnd [rnd ((1071208275 / 2 ^ 23) ^ 2), rnd ((95861612 / 2 ^ 23) ^ 2)] =
        rnd (rnd (0 + rnd ((1071208275 / 2 ^ 23) ^ 2)) + rnd ((95861612 / 2 ^ 23) ^ 2)) := rfl
    rw [e0, zero_add, hr.fix (hr.mem _), hA, hB, hS]
  have main : FlatSpacetime.causalityFl rnd sq (rnd causalityEps) ⟨3, false, none⟩ (point3 0 0 0)
      (point3 (1075489013 / 2 ^ 23) (1071208275 / 2 ^ 23) (95861612 / 2 ^ 23)) = (false, false) := by
    have e1 : flSpaceSq rnd 3 (point3 0 0 0) (point3 (1075489013 / 2 ^ 23) (1071208275 / 2 ^ 23) (95861612 / 2 ^ 23)) =
        flSum rnd [rnd ((1071208275 / 2 ^ 23) ^ 2), rnd ((95861612 / 2 ^ 23) ^ 2)] := by
      have r : List.range' 1 (3 - 1) = [1, 2] := rfl
      unfold flSpaceSq
      rw [r]
      have a1 : rnd (1071208275 / 2 ^ 23) = 1071208275 / 2 ^ 23 := hr.fix ma
      have a2 : rnd (95861612 / 2 ^ 23) = 95861612 / 2 ^ 23 := hr.fix mb
      simp only [List.map_cons, List.map_nil, point3, if_true, if_false, one_ne_zero, OfNat.ofNat_ne_zero, OfNat.ofNat_ne_one, sub_zero, a1, a2]
    have e2 : rnd ((1075489013 : ℝ) / 2 ^ 23) = 1075489013 / 2 ^ 23 := hr.fix mt
    have : causalityFlatFl rnd (rnd causalityEps) 3 (point3 0 0 0) (point3 (1075489013 / 2 ^ 23) (1071208275 / 2 ^ 23) (95861612 / 2 ^ 23)) = (false, false) := by
      unfold causalityFlatFl
      rw [e1, hsum]
      have : (point3 (1075489013 / 2 ^ 23) (1071208275 / 2 ^ 23) (95861612 / 2 ^ 23) 0 - point3 0 0 0 0) = 1075489013 / 2 ^ 23 := by simp [point3]
      simp only [this, e2, ge_iff_le]
      have h0 : test (rnd ((4518268035483259 : ℤ) * (2 : ℝ) ^ (-38 : ℤ) - rnd causalityEps) ≤ rnd ((1075489013 / 2 ^ 23) ^ 2)) = false := by
        simp only [test, decide_eq_false_iff_not]; exact hlt
      rw [h0]; simp
    simpa [FlatSpacetime.causalityFl] using this
  refine ⟨point3 0 0 0, point3 (1075489013 / 2 ^ 23) (1071208275 / 2 ^ 23) (95861612 / 2 ^ 23), fun i => ?_, ?_, main, ?_⟩
  · unfold point3
    split_ifs <;> refine ⟨z0, ?_, by norm_num, ?_⟩ <;> first | assumption | (rw [abs_of_nonneg (by norm_num)]; norm_num)
  · rw [minkLe_iff]
    constructor
    · simp only [point3, if_true]; norm_num
    · unfold spaceSq
      rw [show Finset.Ico 1 3 = {1, 2} by rfl, Finset.sum_pair (by norm_num)]
      simp only [point3]
      norm_num
  · have := (C104_directions hr sq (rnd causalityEps) ⟨3, false, none⟩ (point3 0 0 0) (point3 (1075489013 / 2 ^ 23) (1071208275 / 2 ^ 23) (95861612 / 2 ^ 23))
      (by simpa [point3] using z0) (by simpa [point3] using mt)).2.2.2.2 (by simp only [point3, if_true]; norm_num)
    rw [this, main]

/-- a correctly rounded square satisfies the assumption on `**2` -/
theorem sq_correct (hr : IsRounding rnd) : ∀ z, 0 ≤ rnd (z ^ 2) ∧ |rnd (z ^ 2) - z ^ 2| ≤ 2 * ulp * (z ^ 2 + 1) := by
  intro z
  refine ⟨hr.nonneg (sq_nonneg z), ?_⟩
  have := hr.err' (z ^ 2)
  rw [abs_of_nonneg (sq_nonneg z)] at this
  have hu := ulp_pos
  nlinarith [sq_nonneg z]

/-- the assumptions of `C104_exact` and `C104_create` are met, with IEEE rounding and the tolerance of the code, by three points in three dimensions: two causally related, one unrelated to both -/
example : ∃ S : Set Point, point3 0 0 0 ∈ S ∧ point3 2 1 1 ∈ S ∧ point3 1 5 0 ∈ S ∧ FlatSpacetime.Moderate ⟨3, false, none⟩ (rnd64 causalityEps) S ∧
    FlatSpacetime.ClearSet ⟨3, false, none⟩ (rnd64 causalityEps) S ∧ rnd64 causalityEps ≤ 1 ∧ (∀ z, 0 ≤ rnd64 (z ^ 2) ∧ |rnd64 (z ^ 2) - z ^ 2| ≤ 2 * ulp * (z ^ 2 + 1)) := by
  have hr := C104_ieee
  have hS : ∀ x ∈ ({point3 0 0 0, point3 2 1 1, point3 1 5 0} : Set Point), x = point3 0 0 0 ∨ x = point3 2 1 1 ∨ x = point3 1 5 0 := fun x hx => by simpa using hx
  obtain ⟨b1, b2⟩ := eps_bounds hr
  have hb : rnd64 causalityEps ≤ 1 / 10 := b2.trans (by norm_num)
  have hmem : ∀ n : ℤ, |n| ≤ 2 ^ 53 → (n : ℝ) ∈ Binary64 := fun n hn => int_mem_binary64 hn
  refine ⟨{point3 0 0 0, point3 2 1 1, point3 1 5 0}, by simp, by simp, by simp, (C104_numbers hr _ (by norm_num) rfl _ ?_ ?_).2, ?_, by linarith, sq_correct hr⟩
  · intro x hx
    rcases hS x hx with rfl | rfl | rfl
    · simpa [point3] using hmem 0 (by norm_num)
    · simpa [point3] using hmem 2 (by norm_num)
    · simpa [point3] using hmem 1 (by norm_num)
  · intro x hx y hy i h1 h3
    have : i = 1 ∨ i = 2 := by change i < 3 at h3; omega
    rcases this with rfl | rfl <;> rcases hS x hx with rfl | rfl | rfl <;> rcases hS y hy with rfl | rfl | rfl <;>
      simp only [point3] <;> norm_num [abs_le]
  · intro x hx y hy hxy
    have hd : FlatSpacetime.distSq ⟨3, false, none⟩ x y = (y 1 - x 1) ^ 2 + (y 2 - x 2) ^ 2 := by
      unfold FlatSpacetime.distSq FlatSpacetime.periods
      simp only [Bool.false_eq_true, if_false]
      rw [show Finset.Ico 1 3 = {1, 2} by rfl, Finset.sum_pair (by norm_num)]
      simp [periodicDelta]
    rw [if_neg (by norm_num), hd]
    rintro ⟨k1, k2⟩
    rcases hS x hx with rfl | rfl | rfl <;> rcases hS y hy with rfl | rfl | rfl <;>
      simp only [point3, if_true, if_false, one_ne_zero, OfNat.ofNat_ne_zero, OfNat.ofNat_ne_one] at k1 k2 hxy <;> linarith

end Causets
