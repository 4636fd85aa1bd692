import Verif.Props.Float32Curved
import Verif.Props.Float32TorusExact

/-! # C120 — exact orders and the causal set of a de Sitter sprinkle in single precision -/

namespace Causets

variable {A : NpArith}

/-- **Specification.** The interval of two points of de Sitter spacetime: the squared interval of their images in the ambient Minkowski spacetime (positive if timelike). -/
noncomputable def dSInterval (dim : ℕ) (alpha : ℝ) (x y : Point) : ℝ :=
  (dSEmbed dim alpha y 0 - dSEmbed dim alpha x 0) ^ 2 - spaceSq (dim + 1) (dSEmbed dim alpha x) (dSEmbed dim alpha y)

/-- **Specification.** The points are in the region of the accuracy theorem (inside the horizon with `alpha² - r² ≥ s²`, `|t / alpha| ≤ T`, `cosh (t / alpha) ≤ H`), and no two different
points are close to the light cone of each other: their interval is at least `E` or less than `-(eps + E)`. -/
structure ClearDS32 (dim : ℕ) (alpha eps H T s E : ℝ) (S : Set Point) : Prop where
  region : ∀ x ∈ S, ∑ i ∈ Finset.Ico 1 dim, (x i) ^ 2 + s ^ 2 ≤ alpha ^ 2 ∧ |x 0 / alpha| ≤ T ∧ Real.cosh (x 0 / alpha) ≤ H
  clear : ∀ x ∈ S, ∀ y ∈ S, (∀ i < dim, x i = y i) ∨ E ≤ dSInterval dim alpha x y ∨ dSInterval dim alpha x y < -(eps + E)

theorem causalityDS32_congr (lib : MathLib) (eps : ℝ) (dim : ℕ) (hd : 1 ≤ dim) (alpha alphaSq : ℝ) {x y z : Point} (h : ∀ i < dim, y i = z i) :
    A.causalityDS32 lib eps dim alpha alphaSq x y = A.causalityDS32 lib eps dim alpha alphaSq x z := by
  have h0 := h 0 (by omega)
  have e1 : A.normSq dim y = A.normSq dim z := by
    unfold NpArith.normSq
    congr 1
    exact List.map_congr_left fun i hi => by
      rw [List.mem_range'_1] at hi
      rw [h i (by omega)]
  have e2 : A.spaceSq dim x y = A.spaceSq dim x z := by
    unfold NpArith.spaceSq
    congr 1
    exact List.map_congr_left fun i hi => by
      rw [List.mem_range'_1] at hi
      rw [h i (by omega)]
  unfold NpArith.causalityDS32
  rw [h0, e1, e2]

theorem normSq_lt_mix (hA : A.Accurate) {dim : ℕ} {alpha alphaSq : ℝ} (ha2 : |alphaSq - alpha ^ 2| ≤ 2 * ulp * (alpha ^ 2 + 1)) {R s : ℝ} (hR' : alpha ^ 2 ≤ R ^ 2) (hs : 0 < s) {z : Point}
    (hz : ∑ i ∈ Finset.Ico 1 dim, (z i) ^ 2 + s ^ 2 ≤ alpha ^ 2) (hd : curvedErrD (dim - 1 : ℕ) R / 2 ^ 24 ≤ s ^ 2 / 2) (hn2 : ((dim - 1 : ℕ) : ℝ) * (2 * u32) ≤ 1) :
    A.normSq dim z < A.mix alphaSq := by
  have hu := u32_pos
  have hs2 : 0 < s ^ 2 := by positivity
  have eu : ∀ z : ℝ, z / 2 ^ 24 = z * u32 := fun z => by unfold u32; ring
  rw [eu] at hd
  have hn : (0 : ℝ) ≤ ((dim - 1 : ℕ) : ℝ) := Nat.cast_nonneg _
  have b1 : ∑ i ∈ Finset.Ico 1 dim, (z i) ^ 2 ≤ R ^ 2 := by linarith
  have b2 : |A.normSq dim z - ∑ i ∈ Finset.Ico 1 dim, (z i) ^ 2| ≤ _ := normSq_nearU hu u32_small ((hA.err32).weaken hu.le w32_le) ((hA.mixErr).weaken hu.le w32_le) dim z b1 hn2
  have b3 : |A.mix alphaSq - alpha ^ 2| ≤ (2 * (R ^ 2 + 1)) * u32 := by
    refine (hA.mix_conv (sq_nonneg _) ha2).trans ?_
    nlinarith
  have b4 := abs_le.1 (near_subU b3 b2)
  have b6 : (2 * (R ^ 2 + 1) + (4 * ((dim - 1 : ℕ) : ℝ) + 6) * (R ^ 2 + ((dim - 1 : ℕ) : ℝ) + 1)) * u32 ≤ s ^ 2 / 2 := by
    refine le_trans (mul_le_mul_of_nonneg_right ?_ hu.le) hd
    unfold curvedErrD
    nlinarith [sq_nonneg R]
  linarith [b4.1]

/-- a point precedes itself -/
theorem causalityDS32_refl (hA : A.Accurate) (lib : MathLib) {eps : ℝ} (he : 0 ≤ eps) (dim : ℕ) (alpha alphaSq : ℝ) (x : Point) (hx : A.normSq dim x < A.mix alphaSq) :
    A.causalityDS32 lib eps dim alpha alphaSq x x = (true, false) := by
  have m0 : A.r32 0 = 0 := hA.r32.fix ⟨0, 0, by norm_num, by norm_num, by simp⟩
  have z0 : A.r64 0 = 0 := hA.r64.fix ⟨0, 0, by norm_num, by norm_num, by simp⟩
  have hmono : ∀ a b, a ≤ b → A.mix a ≤ A.mix b := hA.mixErr.mono
  have hidem : ∀ a, A.mix (A.mix a) = A.mix a := by
    intro a
    unfold NpArith.mix NpArith.rnd
    cases (!A.np2)
    · exact hA.r32.fix (hA.r32.mem a)
    · exact hA.r64.fix (hA.r64.mem a)
  have hm0 : A.mix 0 = 0 := by
    have := hA.mixErr.nonneg 0 le_rfl
    have := hA.mixErr.nonpos 0 le_rfl
    linarith
  have hs : A.spaceSq dim x x = 0 := by
    unfold NpArith.spaceSq flSum
    have : ∀ l : List ℕ, (l.map fun i => A.r32 (A.r32 (x i - x i) ^ 2)).foldl (fun s q => A.mix (s + q)) 0 = 0 := by
      intro l
      induction l with
      | nil => rfl
      | cons i l ih =>
        simp only [List.map_cons, List.foldl_cons]
        rw [sub_self, m0, zero_pow two_ne_zero, m0, add_zero, hm0]
        simpa using ih
    exact this _
  have he' : 0 ≤ A.mix eps := hA.mixErr.nonneg _ he
  unfold NpArith.causalityDS32
  simp only [hs, sub_self, z0, zero_add, hidem, test, ge_iff_le, not_le.2 hx, decide_false, Bool.or_self, Bool.false_eq_true, if_false, le_refl, decide_true, lt_irrefl, Bool.false_and, Bool.true_and]
  have : A.mix (A.mix (lib.sq 0) - A.mix eps) ≤ A.mix (lib.sq 0) := by
    conv_rhs => rw [← hidem]
    exact hmono _ _ (by linarith)
  simp [this]

theorem curvedErr32_gt {n R H T s : ℝ} (hn : 0 ≤ n) (hR : 1 ≤ R) (hH : 1 ≤ H) (hT : 0 ≤ T) (hs : 0 < s) : 0 ≤ curvedErrX32 n R H T s ∧ curvedErrX32 n R H T s < curvedErr32 n R H T s := by
  have hT' : 0 ≤ 6 * T + 5 := by linarith
  have hd0 : 0 ≤ curvedErrD n R := by unfold curvedErrD; positivity
  have hX : 0 ≤ curvedErrX n R H (6 * T + 5) s := by unfold curvedErrX; positivity
  refine ⟨hX, ?_⟩
  have hRH : 1 ≤ R * H := one_le_mul_of_one_le_of_one_le hR hH
  have h1 : curvedErrX n R H (6 * T + 5) s ≤ (4 * R * H + 1) * curvedErrX n R H (6 * T + 5) s := le_mul_of_one_le_left hX (by linarith)
  have h2 : 0 ≤ (2 * R * H + 1) ^ 2 := sq_nonneg _
  have h3 : 0 ≤ (R * H) ^ 2 := sq_nonneg _
  have h5 : 0 ≤ (4 * n + 6) * (4 * R ^ 2 + n + 1) := by positivity
  unfold curvedErrX32 curvedErr32 curvedErr
  linarith

/-- **C120, exact orders in de Sitter spacetime.** If no two different points are close to the light cone of each other, the answers for `float32` coordinates are exactly those of the causal
order of de Sitter spacetime, and they form a causal order. -/
theorem C120_exact (hA : A.Accurate) (lib : MathLib) (hl : lib.Accurate) (eps : ℝ) (he0 : 0 ≤ eps) (he1 : eps ≤ 1) (dim : ℕ) (hdim : 2 ≤ dim) (alpha alphaSq : ℝ) (hal : 0 < alpha)
    (ha2 : |alphaSq - alpha ^ 2| ≤ 2 * ulp * (alpha ^ 2 + 1)) (R H T s : ℝ) (hR : 1 ≤ R) (hR' : alpha ^ 2 ≤ R ^ 2) (hs : 0 < s)
    (hd : curvedErrD (dim - 1 : ℕ) R / 2 ^ 24 ≤ s ^ 2 / 2) (hE : curvedErr32 (dim - 1 : ℕ) R H T s / 2 ^ 24 ≤ 1) (S : Set Point)
    (hS : ClearDS32 dim alpha eps H T s (curvedErr32 (dim - 1 : ℕ) R H T s / 2 ^ 24) S) :
    (∀ x ∈ S, ∀ y ∈ S, ((A.causalityDS32 lib eps dim alpha alphaSq x y).1 = true ↔ MinkLe (dim + 1) (dSEmbed dim alpha x) (dSEmbed dim alpha y)) ∧
      ((A.causalityDS32 lib eps dim alpha alphaSq x y).2 = true ↔
        MinkLe (dim + 1) (dSEmbed dim alpha y) (dSEmbed dim alpha x) ∧ ¬ MinkLe (dim + 1) (dSEmbed dim alpha x) (dSEmbed dim alpha y))) ∧
    IsCausalOrder (A.causalityDS32 lib eps dim alpha alphaSq) S := by
  have acc := fun x (hx : x ∈ S) y (hy : y ∈ S) => C120_deSitter hA lib hl eps he0 he1 dim (by omega) alpha alphaSq hal ha2 R H T s hR hR' hs x y (hS.region x hx) (hS.region y hy) hd hE
  -- the two cases of a pair
  have symm : ∀ x y, dSInterval dim alpha x y = dSInterval dim alpha y x := by
    intro x y
    unfold dSInterval spaceSq
    congr 1
    · ring
    · exact Finset.sum_congr rfl fun i _ => by ring
  have le_iff : ∀ x y, MinkLe (dim + 1) (dSEmbed dim alpha x) (dSEmbed dim alpha y) ↔ 0 ≤ dSEmbed dim alpha y 0 - dSEmbed dim alpha x 0 ∧ 0 ≤ dSInterval dim alpha x y := by
    intro x y
    rw [minkLe_iff]
    unfold dSInterval
    constructor <;> rintro ⟨h1, h2⟩ <;> exact ⟨h1, by linarith⟩
  have congrE : ∀ y z : Point, (∀ i < dim, y i = z i) → dSEmbed dim alpha y 0 = dSEmbed dim alpha z 0 ∧ ∀ x, dSInterval dim alpha x y = dSInterval dim alpha x z := by
    intro y z h
    have e1 : ∑ i ∈ Finset.Ico 1 dim, (y i) ^ 2 = ∑ i ∈ Finset.Ico 1 dim, (z i) ^ 2 := Finset.sum_congr rfl fun i hi => by rw [h i (Finset.mem_Ico.1 hi).2]
    have e2 : ∀ i < dim + 1, dSEmbed dim alpha y i = dSEmbed dim alpha z i := by
      intro i hi
      unfold dSEmbed
      rw [e1, h 0 (by omega)]
      dsimp only
      split_ifs with h1 h2
      · rfl
      · rfl
      · exact h i (by omega)
    refine ⟨e2 0 (by omega), fun x => ?_⟩
    unfold dSInterval
    rw [e2 0 (by omega)]
    congr 1
    unfold spaceSq
    exact Finset.sum_congr rfl fun i hi => by rw [e2 i (Finset.mem_Ico.1 hi).2]
  have pair : ∀ x ∈ S, ∀ y ∈ S,
      ((A.causalityDS32 lib eps dim alpha alphaSq x y).1 = true ↔ MinkLe (dim + 1) (dSEmbed dim alpha x) (dSEmbed dim alpha y)) ∧
      ((A.causalityDS32 lib eps dim alpha alphaSq x y).2 = true ↔
        MinkLe (dim + 1) (dSEmbed dim alpha y) (dSEmbed dim alpha x) ∧ ¬ MinkLe (dim + 1) (dSEmbed dim alpha x) (dSEmbed dim alpha y)) := by
    intro x hx y hy
    obtain ⟨a1, a2, a3, a4, a5, a6⟩ := acc x hx y hy
    have hH : 1 ≤ H := (Real.one_le_cosh _).trans (hS.region x hx).2.2
    have hT : 0 ≤ T := (abs_nonneg _).trans (hS.region x hx).2.1
    obtain ⟨g0, gE⟩ := curvedErr32_gt (n := ((dim - 1 : ℕ) : ℝ)) (Nat.cast_nonneg _) hR hH hT hs
    rw [le_iff, le_iff, symm y x]
    rcases hS.clear x hx y hy with h | h
    · obtain ⟨e1, e2⟩ := congrE y x fun i hi => (h i hi).symm
      have hc : A.causalityDS32 lib eps dim alpha alphaSq x y = A.causalityDS32 lib eps dim alpha alphaSq x x := causalityDS32_congr lib eps dim (by omega) alpha alphaSq fun i hi => (h i hi).symm
      have hI : dSInterval dim alpha x y = 0 := by
        rw [e2 x]
        unfold dSInterval spaceSq
        simp
      -- the point is inside the horizon
      have hn : A.normSq dim x < A.mix alphaSq := by
        have hT' : 0 ≤ 6 * T + 5 := by linarith
        refine normSq_lt_mix hA ha2 hR' hs (hS.region x hx).1 hd (sum_smallU u32_pos (Nat.cast_nonneg _) hR hH hT' hs ?_).1
        refine le_trans ?_ hE
        rw [show curvedErr32 ((dim - 1 : ℕ) : ℝ) R H T s / 2 ^ 24 = curvedErr32 ((dim - 1 : ℕ) : ℝ) R H T s * u32 by unfold u32; ring]
        refine mul_le_mul_of_nonneg_right ?_ u32_pos.le
        unfold curvedErr32
        nlinarith [sq_nonneg (R * H)]
      rw [hc, causalityDS32_refl hA lib he0 dim alpha alphaSq x hn, hI, e1]
      simp
    · generalize hg : curvedErrX32 ((dim - 1 : ℕ) : ℝ) R H T s / 2 ^ 24 = g at *
      generalize hEE : curvedErr32 ((dim - 1 : ℕ) : ℝ) R H T s / 2 ^ 24 = E at *
      have g0' : 0 ≤ g := by rw [← hg]; exact div_nonneg g0 (by norm_num)
      have gE' : g < E := by rw [← hg, ← hEE]; exact div_lt_div_of_pos_right gE (by norm_num)
      have hsp : 0 ≤ spaceSq (dim + 1) (dSEmbed dim alpha x) (dSEmbed dim alpha y) := Finset.sum_nonneg fun i _ => sq_nonneg _
      change (_ → _ ∧ -(eps + E) ≤ dSInterval dim alpha x y) at a1
      change (_ → _ ∧ -(eps + E) ≤ dSInterval dim alpha x y) at a2
      change (E - eps ≤ dSInterval dim alpha x y → _) at a3
      change (E - eps ≤ dSInterval dim alpha x y → _) at a4
      change (E - eps ≤ dSInterval dim alpha x y → _) at a5
      have hdt : E ≤ dSInterval dim alpha x y → g ^ 2 < (dSEmbed dim alpha y 0 - dSEmbed dim alpha x 0) ^ 2 := by
        intro h
        have h1 : g ^ 2 < E := by nlinarith
        unfold dSInterval at h
        linarith
      have e : dSEmbed dim alpha x 0 - dSEmbed dim alpha y 0 = -(dSEmbed dim alpha y 0 - dSEmbed dim alpha x 0) := by ring
      rw [e]
      change (_ → -g ≤ dSEmbed dim alpha y 0 - dSEmbed dim alpha x 0 ∧ _) at a1
      change (_ → dSEmbed dim alpha y 0 - dSEmbed dim alpha x 0 ≤ g ∧ _) at a2
      change (_ → g ≤ dSEmbed dim alpha y 0 - dSEmbed dim alpha x 0 → _) at a4
      change (_ → dSEmbed dim alpha y 0 - dSEmbed dim alpha x 0 < -g → _) at a5
      generalize dSEmbed dim alpha y 0 - dSEmbed dim alpha x 0 = dt at *
      generalize dSInterval dim alpha x y = I at *
      have pos : 0 ≤ I → E ≤ I := fun h0 => by
        rcases h with h | h
        · exact h
        · linarith
      have pos' : -(eps + E) ≤ I → E ≤ I := fun h0 => by
        rcases h with h | h
        · exact h
        · linarith
      have big : E ≤ I → 0 ≤ dt → g < dt := fun h1 h2 => by
        have := hdt h1
        by_contra hcon
        nlinarith [not_lt.1 hcon]
      have big' : E ≤ I → dt ≤ 0 → dt < -g := fun h1 h2 => by
        have := hdt h1
        by_contra hcon
        nlinarith [not_lt.1 hcon]
      constructor
      · constructor
        · intro hc
          obtain ⟨b1, b2⟩ := a1 hc
          have hI := pos' b2
          refine ⟨?_, by linarith⟩
          by_contra hcon
          have := big' hI (not_le.1 hcon).le
          linarith
        · rintro ⟨b1, b2⟩
          have hI := pos b2
          exact a4 (by linarith) (big hI b1).le
      · constructor
        · intro hc
          obtain ⟨b1, b2⟩ := a2 hc
          have hI := pos' b2
          have hneg : dt < 0 := by
            by_contra hcon
            have := big hI (not_lt.1 hcon)
            linarith
          exact ⟨⟨by linarith, by linarith⟩, fun hh => by linarith [hh.1]⟩
        · rintro ⟨⟨b1, b2⟩, -⟩
          have hI := pos b2
          exact a5 (by linarith) (big' hI (by linarith))
  refine ⟨pair, ⟨fun x hx y hy z hz h1 h2 => ?_, fun x hx y hy => ?_⟩⟩
  · rw [(pair x hx y hy).1] at h1
    rw [(pair y hy z hz).1] at h2
    rw [(pair x hx z hz).1]
    exact minkLe_trans h1 h2
  · rw [(pair x hx y hy).2, (pair y hy x hx).1, ← (pair x hx y hy).1, Bool.not_eq_true]

/-- **C120, causal sets.** If no two different points are close to the light cone of each other, `create` succeeds and gives exactly the causal set of the points of de Sitter spacetime:
for events at points that do not precede each other mutually, `<` is the causal order of de Sitter spacetime; the state is consistent and linked. -/
theorem C120_create (hA : A.Accurate) (lib : MathLib) (hl : lib.Accurate) (eps : ℝ) (he0 : 0 ≤ eps) (he1 : eps ≤ 1) (dim : ℕ) (hdim : 2 ≤ dim) (alpha alphaSq : ℝ) (hal : 0 < alpha)
    (ha2 : |alphaSq - alpha ^ 2| ≤ 2 * ulp * (alpha ^ 2 + 1)) (R H T s : ℝ) (hR : 1 ≤ R) (hR' : alpha ^ 2 ≤ R ^ 2) (hs : 0 < s)
    (hd : curvedErrD (dim - 1 : ℕ) R / 2 ^ 24 ≤ s ^ 2 / 2) (hE : curvedErr32 (dim - 1 : ℕ) R H T s / 2 ^ 24 ≤ 1) (S : Set Point)
    (hS : ClearDS32 dim alpha eps H T s (curvedErr32 (dim - 1 : ℕ) R H T s / 2 ^ 24) S) (it : Iter) (coords : List Point) (hcoords : ∀ x ∈ coords, x ∈ S)
    (fmt : Option (ℕ → String)) (w : World Point) (v : w.heap.Valid) (lx : w.heap.LinksExact) :
    let r := create (A.causalityDS32 lib eps dim alpha alphaSq) it ∅ coords fmt true w
    let le := fun x y => MinkLe (dim + 1) (dSEmbed dim alpha x) (dSEmbed dim alpha y)
    r.2.2.1 = .ok () ∧ r.2.2.2.heap.Valid ∧ r.2.2.2.heap.LinksExact ∧ Closed r.2.2.2.heap.Lt r.1 ∧ (∀ e ∈ r.1, r.2.2.2.heap.hasBeenLinked e = true) ∧
      (∀ e ∈ r.1, ∃ x ∈ S, r.2.2.2.crd e = some x) ∧
      ((∀ a ∈ r.1, ∀ b ∈ r.1, ∀ x y, r.2.2.2.crd a = some x → r.2.2.2.crd b = some y → a ≠ b → ¬ (le x y ∧ le y x)) →
        ∀ a ∈ r.1, ∀ b ∈ r.1, ∀ x y, r.2.2.2.crd a = some x → r.2.2.2.crd b = some y → (r.2.2.2.heap.Lt a b ↔ a ≠ b ∧ le x y)) := by
  intro r le
  obtain ⟨hk, hc⟩ := C120_exact hA lib hl eps he0 he1 dim hdim alpha alphaSq hal ha2 R H T s hR hR' hs hd hE S hS
  obtain ⟨h1, h2, h3, -, h5, h6, h7, h8, -⟩ := C42_create (A.causalityDS32 lib eps dim alpha alphaSq) S hc it ∅ coords fmt w v lx (by simp) (by intro x hx; simp at hx) (by simp) hcoords
  refine ⟨h1, h2, h3, h5, h6, h7, fun hne a ha b hb x y hx hy => ?_⟩
  have hS : ∀ e ∈ r.1, ∀ x, r.2.2.2.crd e = some x → x ∈ S := by
    intro e hE x hx
    obtain ⟨x', hx', hx2⟩ := h7 e hE
    have : x = x' := by
      have : some x = some x' := hx.symm.trans hx2
      simpa using this
    rw [this]; exact hx'
  have := h8 (fun a ha b hb x y hx hy hab => by
    rw [(hk x (hS a ha x hx) y (hS b hb y hy)).1, (hk y (hS b hb y hy) x (hS a ha x hx)).1]
    exact hne a ha b hb x y hx hy hab) a ha b hb x y hx hy
  rw [(hk x (hS a ha x hx) y (hS b hb y hy)).1] at this
  exact this

end Causets
