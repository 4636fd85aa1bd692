import Verif.Model.Float32Period
import Verif.Props.Float32Exact

/-! # C119 — periodic flat spacetimes in single precision -/

namespace Causets

/-- the relative error of `float32` -/
noncomputable def u32 : ℝ := 1 / 2 ^ 24

/-- below this size the error of `float32` is absolute -/
noncomputable def w32 : ℝ := 1 / 2 ^ 126

/-- **Specification.** IEEE 754: the two roundings go to a nearest number of their format; the power `**2` has an error of at most two units of `float32`. -/
structure NpArith.Accurate (A : NpArith) : Prop where
  r32 : IsRoundingTo Binary32 A.r32
  r64 : IsRoundingTo Binary64 A.r64
  sq : ∀ w z, 0 ≤ A.sq w z ∧ |A.sq w z - z ^ 2| ≤ 2 / 2 ^ 24 * (z ^ 2 + 1 / 2 ^ 126)

theorem u32_pos : 0 < u32 := by unfold u32; positivity
theorem u32_small : u32 ≤ 1 / 1000000 := by unfold u32; norm_num
theorem w32_pos : 0 < w32 := by unfold w32; positivity
theorem w32_le : w32 ≤ 1 := by unfold w32; norm_num

theorem roundErr32 {p : ℕ} {emin : ℤ} (hp : 24 ≤ p) (he : emin ≤ -149) {rnd : ℝ → ℝ} (hr : IsRoundingTo (FloatNum p emin) rnd) : RoundErr rnd u32 w32 := by
  have huw : u32 * w32 = 2 ^ (-150 : ℤ) := by unfold u32 w32; rw [zpow_neg]; norm_num
  have hz24 : (2 : ℝ) ^ (-24 : ℤ) = u32 := by unfold u32; rw [zpow_neg, one_div]; norm_cast
  exact roundErr_floatNum (by omega) hr u32 w32 (by rw [← hz24]; exact zpow_le_zpow_right₀ (by norm_num) (by omega))
    (by rw [huw]; exact zpow_le_zpow_right₀ (by norm_num) (by omega))

namespace NpArith.Accurate

variable {A : NpArith} (hA : A.Accurate)
include hA

theorem err32 : RoundErr A.r32 u32 w32 := roundErr32 le_rfl le_rfl hA.r32
theorem err64 : RoundErr A.r64 u32 w32 := roundErr32 (p := 53) (emin := -1074) (by norm_num) (by norm_num) hA.r64

theorem errT (w : Bool) : RoundErr (A.rnd w) u32 w32 := by
  unfold NpArith.rnd
  split
  · exact hA.err64
  · exact hA.err32

theorem rnd_zero (w : Bool) : A.rnd w 0 = 0 := le_antisymm ((hA.errT w).nonpos 0 le_rfl) ((hA.errT w).nonneg 0 le_rfl)

/-- the error of the distance along a direction -/
theorem delta_err (kind : ℕ → NumKind) (period : ℕ → ℝ) (i : ℕ) (x y : Point) (hd : period (i - 1) > 0 → |y i - x i| ≤ period (i - 1)) :
    let b := if period (i - 1) > 0 ∧ |y i - x i| > period (i - 1) / 3 then period (i - 1) else |y i - x i|
    |(A.delta kind period i x y).val - periodicDelta (period (i - 1)) (y i - x i)| ≤ 8 * u32 * (b + w32) ∧
      0 ≤ periodicDelta (period (i - 1)) (y i - x i) ∧ periodicDelta (period (i - 1)) (y i - x i) ≤ b ∧ 0 ≤ b := by
  intro b
  have hu := u32_pos
  have hus := u32_small
  have hw := w32_pos
  set d := y i - x i with hdd
  have h0 := abs_nonneg d
  have h1 : |(|A.r32 d|) - (|d|)| ≤ u32 * (|d| + w32) := (abs_abs_sub_abs_le _ _).trans (hA.err32.err d)
  unfold NpArith.delta Causets.periodicDelta
  dsimp only
  rw [← hdd]
  by_cases hp : period (i - 1) > 0
  · have hdp := hd hp
    rw [if_pos hp, if_pos hp]
    have hb0 : 0 ≤ b ∧ |d| ≤ b := by
      by_cases h : |d| > period (i - 1) / 3
      · rw [show b = period (i - 1) from if_pos ⟨hp, h⟩]; exact ⟨hp.le, hdp⟩
      · rw [show b = |d| from if_neg (fun h' => h h'.2)]; exact ⟨h0, le_rfl⟩
    refine ⟨?_, le_min h0 (by linarith), (min_le_left _ _).trans hb0.2, hb0.1⟩
    have hbp : b = period (i - 1) ∨ (b = |d| ∧ |d| ≤ period (i - 1) / 3) := by
      by_cases h : |d| > period (i - 1) / 3
      · exact Or.inl (if_pos ⟨hp, h⟩)
      · exact Or.inr ⟨if_neg (fun h' => h h'.2), not_lt.1 h⟩
    clear_value b
    set p := period (i - 1)
    have hmin : ∀ a c : NpFloat, (npMin a c).val = min a.val c.val := by
      intro a c
      unfold npMin
      split
      · next h => rw [min_eq_right h.le]
      · next h => rw [min_eq_left (not_lt.1 h)]
    rw [hmin]
    set r : NpFloat := ⟨|A.r32 d|, false⟩ with hr
    have hval : ∀ w, |A.valueIn w (periodOperand kind period (i - 1)) - p| ≤ u32 * (p + w32) := by
      intro w
      unfold periodOperand
      split
      · have := (hA.errT w).err p
        rwa [abs_of_pos hp] at this
      · simp only [NpArith.valueIn, p, sub_self, abs_zero]; positivity
      · simp only [NpArith.valueIn, p, sub_self, abs_zero]; positivity
    have h2 : |(A.subFrom (periodOperand kind period (i - 1)) r).val - (p - |d|)| ≤ 4 * u32 * (p + w32) := by
      unfold NpArith.subFrom
      dsimp only
      set w := A.wideWith r.wide (periodOperand kind period (i - 1))
      have k1 := hval w
      set v := A.valueIn w (periodOperand kind period (i - 1))
      have k2 := (hA.errT w).err (v - r.val)
      have k3 : |v - r.val - (p - |d|)| ≤ 2 * u32 * (p + w32) := by
        have : v - r.val - (p - |d|) = (v - p) - (|A.r32 d| - |d|) := by rw [hr]; ring
        rw [this]
        have := abs_sub (v - p) (|A.r32 d| - |d|)
        have : u32 * (|d| + w32) ≤ u32 * (p + w32) := mul_le_mul_of_nonneg_left (by linarith) hu.le
        linarith
      have k4 : abs (p - |d|) ≤ p := by rw [abs_le]; constructor <;> linarith
      have k5 : |v - r.val| ≤ p + 2 * u32 * (p + w32) := by
        have := abs_sub_abs_le_abs_sub (v - r.val) (p - |d|)
        linarith
      have k6 := abs_sub_le (A.rnd w (v - r.val)) (v - r.val) (p - |d|)
      have k7 : u32 * (|v - r.val| + w32) ≤ u32 * (2 * (p + w32)) := by
        refine mul_le_mul_of_nonneg_left ?_ hu.le
        have : 2 * u32 * (p + w32) ≤ 1 * (p + w32) := mul_le_mul_of_nonneg_right (by linarith) (by linarith)
        linarith
      linarith
    have hmm : |min r.val (A.subFrom (periodOperand kind period (i - 1)) r).val - min |d| (p - |d|)| ≤ 4 * u32 * (p + w32) := by
      refine (abs_min_sub_min_le_max _ _ _ _).trans (max_le ?_ h2)
      refine h1.trans ?_
      have : u32 * (|d| + w32) ≤ u32 * (p + w32) := mul_le_mul_of_nonneg_left (by linarith) hu.le
      have : 0 ≤ u32 * (p + w32) := by positivity
      linarith
    rcases hbp with hbp | ⟨hbp, h3⟩
    · rw [hbp]
      have : 0 ≤ u32 * (p + w32) := by positivity
      linarith
    · rw [hbp]
      rcases lt_or_ge p w32 with hpw | hpw
      · have : u32 * (p + w32) ≤ u32 * (2 * (|d| + w32)) := mul_le_mul_of_nonneg_left (by linarith) hu.le
        linarith
      · have h1' := (abs_le.1 h1).2
        have h2' := (abs_le.1 h2).1
        have c1 : u32 * (p + w32) ≤ 1 / 1000000 * (2 * p) := mul_le_mul u32_small (by linarith) (by linarith) (by norm_num)
        have c2 : u32 * (|d| + w32) ≤ u32 * (p + w32) := mul_le_mul_of_nonneg_left (by linarith) hu.le
        have c3 : r.val ≤ (A.subFrom (periodOperand kind period (i - 1)) r).val := by
          show |A.r32 d| ≤ _
          linarith
        rw [min_eq_left c3, min_eq_left (by linarith : |d| ≤ p - |d|)]
        refine h1.trans ?_
        have : 0 ≤ u32 * (|d| + w32) := by positivity
        linarith
  · have hb : b = |d| := if_neg (fun h => hp h.1)
    rw [if_neg hp, if_neg hp, hb]
    refine ⟨?_, h0, le_rfl, h0⟩
    have : 0 ≤ u32 * (|d| + w32) := by positivity
    linarith

/-- the error of its square -/
theorem square_err (kind : ℕ → NumKind) (period : ℕ → ℝ) (i : ℕ) (x y : Point) (hd : period (i - 1) > 0 → |y i - x i| ≤ period (i - 1)) :
    let b := if period (i - 1) > 0 ∧ |y i - x i| > period (i - 1) / 3 then period (i - 1) else |y i - x i|
    0 ≤ (A.square (A.delta kind period i x y)).val ∧
    |(A.square (A.delta kind period i x y)).val - periodicDelta (period (i - 1)) (y i - x i) ^ 2| ≤ 32 * u32 * (b ^ 2 + w32) ∧
      periodicDelta (period (i - 1)) (y i - x i) ^ 2 ≤ b ^ 2 := by
  intro b
  have hu := u32_pos
  have hus := u32_small
  have hw := w32_pos
  have hw1 := w32_le
  obtain ⟨h1, h2, h3, hb⟩ := hA.delta_err kind period i x y hd
  have hbdef : (if period (i - 1) > 0 ∧ |y i - x i| > period (i - 1) / 3 then period (i - 1) else |y i - x i|) = b := rfl
  rw [hbdef] at h1 h3 hb
  unfold NpArith.square
  dsimp only
  set Z := A.delta kind period i x y
  set v := periodicDelta (period (i - 1)) (y i - x i)
  set wd := A.wideWith Z.wide (.py 2)
  obtain ⟨k0, k1⟩ := hA.sq wd Z.val
  have k1' : |A.sq wd Z.val - Z.val ^ 2| ≤ 2 * u32 * (Z.val ^ 2 + w32) := by
    have e : 2 * u32 * (Z.val ^ 2 + w32) = 2 / 2 ^ 24 * (Z.val ^ 2 + 1 / 2 ^ 126) := by unfold u32 w32; ring
    rw [e]; exact k1
  clear_value Z v wd b
  generalize A.sq wd Z.val = Q at *
  generalize Z.val = z at *
  generalize hu32 : u32 = u at *
  generalize hw32 : w32 = w at *
  have e : z ^ 2 - v ^ 2 = (z - v) * (2 * v + (z - v)) := by ring
  have b1 : |2 * v + (z - v)| ≤ 2 * b + 8 * u * (b + w) := by
    refine (abs_add_le _ _).trans ?_
    rw [abs_of_nonneg (by linarith : 0 ≤ 2 * v)]; linarith
  have hww : w ^ 2 ≤ w := by nlinarith
  have b2 : |z ^ 2 - v ^ 2| ≤ 27 * u * (b ^ 2 + w) := by
    rw [e, abs_mul]
    calc |z - v| * |2 * v + (z - v)| ≤ (8 * u * (b + w)) * (2 * b + 8 * u * (b + w)) := mul_le_mul h1 b1 (abs_nonneg _) (by positivity)
      _ = 8 * u * ((b + w) * (2 * b + 8 * u * (b + w))) := by ring
      _ ≤ 8 * u * (27 / 8 * (b ^ 2 + w)) := by
        refine mul_le_mul_of_nonneg_left ?_ (by linarith)
        have : 8 * u * (b + w) ≤ 1 / 100000 * (b + w) := mul_le_mul_of_nonneg_right (by linarith) (by linarith)
        have : (b + w) * (2 * b + 8 * u * (b + w)) ≤ (b + w) * (2 * b + 1 / 100000 * (b + w)) := mul_le_mul_of_nonneg_left (by linarith) (by linarith)
        nlinarith [sq_nonneg (b - w)]
      _ = _ := by ring
  have b3 : v ^ 2 ≤ b ^ 2 := pow_le_pow_left₀ h2 h3 2
  refine ⟨k0, ?_, b3⟩
  have b4 := (abs_le.1 b2).2
  have b5 : z ^ 2 + w ≤ 3 / 2 * (b ^ 2 + w) := by
    have : 27 * u * (b ^ 2 + w) ≤ 1 / 2 * (b ^ 2 + w) := mul_le_mul_of_nonneg_right (by linarith) (by positivity)
    linarith
  have b6 : 2 * u * (z ^ 2 + w) ≤ 2 * u * (3 / 2 * (b ^ 2 + w)) := mul_le_mul_of_nonneg_left b5 (by linarith)
  have k2 := abs_sub_le Q (z ^ 2) (v ^ 2)
  have b7 : 0 ≤ u * (b ^ 2 + w) := by positivity
  linarith

/-- the error of a sum with types -/
theorem fold_err (f : ℕ → NpFloat) (P : ℝ) (hP : 0 ≤ P) : ∀ (L : List ℕ) (s : PyNum) (σ : ℝ) (k : ℕ), (∀ i ∈ L, 0 ≤ (f i).val) → 0 ≤ σ → σ + (L.map fun i => (f i).val).sum ≤ P →
    ((k + L.length : ℕ) : ℝ) * (2 * u32) ≤ 1 → (∀ w, |A.valueIn w s - σ| ≤ k * (2 * u32 * (P + w32))) →
    ∀ w, |A.valueIn w (L.foldl (fun s i => PyNum.np (A.addTo s (f i))) s) - (σ + (L.map fun i => (f i).val).sum)| ≤ (k + L.length : ℕ) * (2 * u32 * (P + w32)) := by
  intro L
  have hu0 := u32_pos
  have hw0 := w32_pos
  induction L with
  | nil => intro s σ k _ _ _ _ h; simpa using h
  | cons i L ih =>
    intro s σ k hq hσ hs hk h
    have hq0 : 0 ≤ (f i).val := hq i List.mem_cons_self
    have hl0 : 0 ≤ (L.map fun i => (f i).val).sum := List.sum_nonneg fun a ha => by
      obtain ⟨j, hj, rfl⟩ := List.mem_map.1 ha; exact hq j (List.mem_cons_of_mem _ hj)
    rw [List.map_cons, List.sum_cons] at hs
    have hk1 : ((k + 1 : ℕ) : ℝ) * (2 * u32) ≤ 1 := by
      refine le_trans (mul_le_mul_of_nonneg_right ?_ (by linarith)) hk
      have : k + 1 ≤ k + (i :: L).length := by simp
      exact_mod_cast this
    have h1 : |(A.addTo s (f i)).val - (σ + (f i).val)| ≤ ((k + 1 : ℕ) : ℝ) * (2 * u32 * (P + w32)) := by
      unfold NpArith.addTo
      dsimp only
      set w := A.wideWith (f i).wide s
      have hs := h w
      set v := A.valueIn w s
      have e1 := (hA.errT w).err (v + (f i).val)
      have e2 := abs_sub_le (A.rnd w (v + (f i).val)) (v + (f i).val) (σ + (f i).val)
      have e3 : |v + (f i).val - (σ + (f i).val)| = |v - σ| := by congr 1; ring
      have e4 : |v + (f i).val| ≤ P + |v - σ| := by
        have : v + (f i).val = (σ + (f i).val) + (v - σ) := by ring
        rw [this]
        refine (abs_add_le _ _).trans ?_
        rw [abs_of_nonneg (by linarith : 0 ≤ σ + (f i).val)]
        linarith
      have hPw : 0 ≤ P + w32 := by linarith
      have e5 : (k : ℝ) * (2 * u32 * (P + w32)) ≤ P + w32 := by
        push_cast at hk1
        have : (k : ℝ) * (2 * u32) ≤ 1 := by linarith
        nlinarith
      push_cast
      have e6 : u32 * (|v + (f i).val| + w32) ≤ u32 * (2 * (P + w32)) := mul_le_mul_of_nonneg_left (by linarith) hu0.le
      rw [e3] at e2
      nlinarith
    have h2 := ih (.np (A.addTo s (f i))) (σ + (f i).val) (k + 1) (fun a ha => hq a (List.mem_cons_of_mem _ ha)) (by linarith) (by linarith)
      (by rw [show k + 1 + L.length = k + (i :: L).length by simp; omega]; exact hk) (fun _ => h1)
    intro w
    rw [List.foldl_cons, List.map_cons, List.sum_cons, show k + (i :: L).length = k + 1 + L.length by simp; omega,
      show σ + ((f i).val + (L.map fun i => (f i).val).sum) = σ + (f i).val + (L.map fun i => (f i).val).sum by ring]
    exact h2 w

/-- the tolerance -/
theorem subEps_form (s : PyNum) (S eps : ℝ) (heps : 0 ≤ eps) (hs : ∀ c, s = .py c → c = S) (hs2 : ∀ a, s = .np a → a.val = S) :
    ∃ w e, |e - eps| ≤ u32 * (eps + w32) ∧ (A.subEps s eps).val = A.rnd w (S - e) := by
  have hu0 := u32_pos
  have hw0 := w32_pos
  unfold NpArith.subEps
  cases s with
  | py c =>
    refine ⟨true, eps, ?_, ?_⟩
    · rw [sub_self, abs_zero]; positivity
    · rw [hs c rfl]; rfl
  | np a =>
    refine ⟨a.wide || !A.np2, A.rnd (a.wide || !A.np2) eps, ?_, ?_⟩
    · have := (hA.errT (a.wide || !A.np2)).err eps
      rwa [abs_of_nonneg heps] at this
    · dsimp only; rw [hs2 a rfl]

end NpArith.Accurate

/-- **Specification.** The size of the numbers in the test along direction `i`: the difference of the coordinates, or the period if they differ by more than a third of it. -/
noncomputable def FlatSpacetime.sizeAt (M : FlatSpacetime) (x y : Point) (i : ℕ) : ℝ :=
  if M.periods (i - 1) > 0 ∧ |y i - x i| > M.periods (i - 1) / 3 then M.periods (i - 1) else |y i - x i|

/-- **Specification.** The sum of the squares of the sizes. -/
noncomputable def FlatSpacetime.sizeSq (M : FlatSpacetime) (x y : Point) : ℝ := ∑ i ∈ Finset.Ico 1 M.dim, M.sizeAt x y i ^ 2

/-- **Specification.** The margin of the test in three and more dimensions (of squares), and in two dimensions. -/
noncomputable def FlatSpacetime.margin (M : FlatSpacetime) (eps : ℝ) (x y : Point) : ℝ :=
  if M.dim = 2 then 20 / 2 ^ 24 * (M.sizeAt x y 1 + eps + 1 / 2 ^ 126) else (4 * M.dim + 40) / 2 ^ 24 * (M.sizeSq x y + eps + M.dim / 2 ^ 126)

/-- the comparison of squares -/
theorem compare32 {rt rs : ℝ → ℝ} (h1 : RoundErr rt u32 w32) (h2 : RoundErr rs u32 w32) {t eps e S D R n : ℝ} (hn3 : 3 ≤ n) (hn : n ≤ 100000) (heps : 0 ≤ eps) (he : |e - eps| ≤ u32 * (eps + w32))
    (hD : 0 ≤ D) (hR : D + n * w32 ≤ R) (hS : |S - D| ≤ (4 * n + 28) * u32 * R) :
    (D + (4 * n + 40) * u32 * (R + eps) ≤ t ^ 2 + eps → rs (S - e) ≤ rt (rt t ^ 2)) ∧ (rs (S - e) ≤ rt (rt t ^ 2) → D ≤ t ^ 2 + eps + (4 * n + 40) * u32 * (R + eps)) := by
  have hu := u32_pos
  have hw := w32_pos
  have hus : 400040 * u32 ≤ 1 / 6 := by unfold u32; norm_num
  have hsq := abs_le.1 (h1.sq_err hu u32_small hw w32_le t)
  have hse := abs_le.1 (h2.err (S - e))
  have hs := abs_le.1 hS
  have he' := abs_le.1 he
  generalize u32 = u at *
  generalize w32 = w at *
  have hnw : 3 * w ≤ n * w := mul_le_mul_of_nonneg_right hn3 hw.le
  have hR0 : 0 ≤ R := by linarith
  have hnu : (4 * n + 40) * u ≤ 1 / 6 := by
    have : (4 * n + 40) * u ≤ 400040 * u := mul_le_mul_of_nonneg_right (by linarith) hu.le
    linarith
  have hsm : (4 * n + 28) * u * R ≤ 1 * R := mul_le_mul_of_nonneg_right (by linarith) hR0
  have hue : u * (eps + w) ≤ 1 * (eps + w) := mul_le_mul_of_nonneg_right (by linarith) (by linarith)
  have hSabs : |S - e| + w ≤ 3 * R + 2 * eps := by
    have : |S - e| ≤ D + R + 2 * eps + w := by rw [abs_le]; constructor <;> linarith
    linarith
  have hrhs : u * (|S - e| + w) ≤ u * (3 * R + 2 * eps) := mul_le_mul_of_nonneg_left hSabs hu.le
  have huR : 0 ≤ u * R := mul_nonneg hu.le hR0
  have hueps : 0 ≤ u * eps := mul_nonneg hu.le heps
  have huw : u * w ≤ u * R := mul_le_mul_of_nonneg_left (by linarith) hu.le
  have hnuR : 3 * (u * R) ≤ n * (u * R) := mul_le_mul_of_nonneg_right hn3 huR
  have hnue : 3 * (u * eps) ≤ n * (u * eps) := mul_le_mul_of_nonneg_right hn3 hueps
  have hDw : 6 * u * (D + w) ≤ 6 * u * R := mul_le_mul_of_nonneg_left (by linarith) (by linarith)
  set E := (4 * n + 40) * u * (R + eps) with hE
  have hEe : E = 4 * (n * (u * R)) + 40 * (u * R) + 4 * (n * (u * eps)) + 40 * (u * eps) := by rw [hE]; ring
  have hE6 : 6 * u * E ≤ u * (R + eps) := by
    have : 6 * u * E = (6 * ((4 * n + 40) * u)) * (u * (R + eps)) := by rw [hE]; ring
    rw [this]
    calc _ ≤ 1 * (u * (R + eps)) := mul_le_mul_of_nonneg_right (by linarith) (mul_nonneg hu.le (by linarith))
      _ = _ := one_mul _
  clear_value E
  constructor
  · intro hle
    have k1 : t ^ 2 - 6 * u * (t ^ 2 + w) ≥ (D + E - eps) - 6 * u * (D + E - eps + w) := by
      have : (1 - 6 * u) * (D + E - eps) ≤ (1 - 6 * u) * t ^ 2 := mul_le_mul_of_nonneg_left (by linarith) (by linarith)
      linarith
    linarith
  · intro h
    by_cases hc : D ≤ t ^ 2
    · linarith
    · push Not at hc
      have k3 : 6 * u * (t ^ 2 + w) ≤ 6 * u * R := mul_le_mul_of_nonneg_left (by linarith) (by linarith)
      linarith

/-- the comparison in two dimensions -/
theorem compare32_2D {rt rs : ℝ → ℝ} (h1 : RoundErr rt u32 w32) (h2 : RoundErr rs u32 w32) {t eps e z v b : ℝ} (heps : 0 ≤ eps) (he : |e - eps| ≤ u32 * (eps + w32))
    (hv : 0 ≤ v) (hvb : v ≤ b) (hz : |z - v| ≤ 8 * u32 * (b + w32)) :
    (v + 20 * u32 * (b + eps + w32) ≤ |t| + eps → rs (|z| - e) ≤ |rt t|) ∧ (rs (|z| - e) ≤ |rt t| → v ≤ |t| + eps + 20 * u32 * (b + eps + w32)) := by
  have hu := u32_pos
  have hw := w32_pos
  have hus := u32_small
  have hse := abs_le.1 (h2.err (|z| - e))
  have ht : |(|rt t|) - (|t|)| ≤ u32 * (|t| + w32) := (abs_abs_sub_abs_le _ _).trans (h1.err t)
  have ht' := abs_le.1 ht
  have hz2 : |(|z|) - v| ≤ 8 * u32 * (b + w32) := by
    have := abs_abs_sub_abs_le z v
    rw [abs_of_nonneg hv] at this
    linarith
  have hz' := abs_le.1 hz2
  have he' := abs_le.1 he
  generalize u32 = u at *
  generalize w32 = w at *
  generalize |rt t| = T at *
  have ht0 := abs_nonneg t
  generalize |t| = τ at *
  have hz0 := abs_nonneg z
  generalize |z| = ζ at *
  have hue : u * (eps + w) ≤ 1 / 1000 * (eps + w) := mul_le_mul_of_nonneg_right (by linarith) (by linarith)
  have hub : 8 * u * (b + w) ≤ 1 / 1000 * (b + w) := mul_le_mul_of_nonneg_right (by linarith) (by linarith)
  have hSabs : |ζ - e| + w ≤ 3 * (b + eps + w) := by
    have : |ζ - e| ≤ (b + eps + w) + 1 / 1000 * (eps + w) + 1 / 1000 * (b + w) := by rw [abs_le]; constructor <;> linarith
    linarith
  have hrhs : u * (|ζ - e| + w) ≤ u * (3 * (b + eps + w)) := mul_le_mul_of_nonneg_left hSabs hu.le
  have hub0 : 0 ≤ u * b := mul_nonneg hu.le (by linarith)
  have hueps : 0 ≤ u * eps := mul_nonneg hu.le heps
  have huw0 : 0 ≤ u * w := mul_nonneg hu.le hw.le
  have huv : u * v ≤ u * b := mul_le_mul_of_nonneg_left hvb hu.le
  set E := 20 * u * (b + eps + w) with hE
  have hEe : E = 20 * (u * b) + 20 * (u * eps) + 20 * (u * w) := by rw [hE]; ring
  have hE6 : u * E ≤ u * (b + eps + w) := by
    refine mul_le_mul_of_nonneg_left ?_ hu.le
    rw [hE]
    calc 20 * u * (b + eps + w) ≤ 1 * (b + eps + w) := mul_le_mul_of_nonneg_right (by linarith) (by linarith)
      _ = _ := one_mul _
  clear_value E
  constructor
  · intro hle
    have k1 : τ - u * (τ + w) ≥ (v + E - eps) - u * (v + E - eps + w) := by
      have : (1 - u) * (v + E - eps) ≤ (1 - u) * τ := mul_le_mul_of_nonneg_left (by linarith) (by linarith)
      linarith
    linarith
  · intro h
    by_cases hc : v ≤ τ
    · linarith
    · push Not at hc
      have k3 : u * (τ + w) ≤ u * (b + w) := mul_le_mul_of_nonneg_left (by linarith) hu.le
      linarith

end Causets
