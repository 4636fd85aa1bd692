import Verif.Model.FloatCausality

/-! # C104 — rounding to binary64 -/

namespace Causets

/-- **Specification.** A rounding of real numbers to binary64 numbers: to a nearest one (any rule for ties that is symmetric in the sign). -/
structure IsRounding (rnd : ℝ → ℝ) : Prop where
  mem : ∀ z, rnd z ∈ Binary64
  nearest : ∀ z, ∀ f ∈ Binary64, |rnd z - z| ≤ |f - z|
  odd : ∀ z, rnd (-z) = - rnd z

/-! ## ties to even -/

theorem roundEven_err (z : ℝ) : |(roundEven z : ℝ) - z| ≤ 1 / 2 := by
  have h0 := Int.fract_nonneg z
  have h1 := Int.fract_lt_one z
  have h2 : (⌊z⌋ : ℝ) = z - Int.fract z := by linarith [Int.floor_add_fract z]
  unfold roundEven
  split_ifs with a b c <;> push_cast <;> rw [h2, abs_le] <;> constructor <;> linarith

theorem roundEven_nearest (z : ℝ) (n : ℤ) : |(roundEven z : ℝ) - z| ≤ |(n : ℝ) - z| := by
  by_contra h
  push Not at h
  have h1 := roundEven_err z
  have h2 : |(n : ℝ) - z| < 1 / 2 := lt_of_lt_of_le h h1
  have h3 : |((roundEven z - n : ℤ) : ℝ)| < 1 := by
    push_cast
    rw [abs_lt] at *
    rw [abs_le] at h1
    constructor <;> linarith
  have h4 : |roundEven z - n| < 1 := by exact_mod_cast h3
  have h5 : roundEven z = n := by
    have := Int.abs_lt_one_iff.1 h4
    omega
  rw [h5] at h
  exact lt_irrefl _ h

theorem roundEven_neg (z : ℝ) : roundEven (-z) = - roundEven z := by
  by_cases h0 : Int.fract z = 0
  · have hz : z = (⌊z⌋ : ℝ) := by linarith [Int.floor_add_fract z]
    have e1 : roundEven z = ⌊z⌋ := by unfold roundEven; rw [h0]; norm_num
    have e2 : Int.fract (-z) = 0 := by rw [Int.fract_neg_eq_zero]; exact h0
    have e3 : ⌊-z⌋ = -⌊z⌋ := by
      conv_lhs => rw [hz]
      rw [← Int.cast_neg, Int.floor_intCast]
    have e4 : roundEven (-z) = ⌊-z⌋ := by unfold roundEven; rw [e2]; norm_num
    rw [e4, e3, e1]
  · have e2 : Int.fract (-z) = 1 - Int.fract z := Int.fract_neg h0
    have e3 : ⌊-z⌋ = -⌊z⌋ - 1 := by
      have h1 : (⌊-z⌋ : ℝ) = ((-⌊z⌋ - 1 : ℤ) : ℝ) := by
        push_cast
        have := Int.floor_add_fract (-z)
        have := Int.floor_add_fract z
        linarith
      exact_mod_cast h1
    unfold roundEven
    rw [e2, e3]
    rcases lt_trichotomy (Int.fract z) (1 / 2) with h | h | h
    · rw [if_neg (by linarith), if_pos (by linarith), if_pos h]; ring
    · rw [h]
      norm_num
      by_cases he : Even ⌊z⌋
      · have : ¬ Odd ⌊z⌋ := by rwa [Int.not_odd_iff_even]
        rw [if_neg this, if_pos he]
      · have : Odd ⌊z⌋ := by rwa [← Int.not_even_iff_odd]
        rw [if_pos this, if_neg he]; ring
    · rw [if_pos (by linarith), if_neg (by linarith), if_pos h]; ring

theorem lastBit_neg (z : ℝ) : lastBit (-z) = lastBit z := by unfold lastBit; rw [abs_neg]

theorem pow_lastBit_pos (z : ℝ) : (0 : ℝ) < 2 ^ lastBit z := zpow_pos (by norm_num) _

theorem abs_lt_lastBit (z : ℝ) : |z| < 2 ^ (lastBit z + 53) := by
  rcases eq_or_ne z 0 with rfl | hz
  · rw [abs_zero]; exact zpow_pos (by norm_num) _
  · have h1 := Int.lt_zpow_succ_log_self (b := 2) (by norm_num) |z|
    refine lt_of_lt_of_le h1 ?_
    push_cast
    refine zpow_le_zpow_right₀ (by norm_num) ?_
    unfold lastBit
    have := le_max_right (-1074) (Int.log 2 |z| - 52)
    omega

/-- multiples of the last bit, not too large, are binary64 numbers -/
theorem mem_binary64_of_le {n e : ℤ} (he : -1074 ≤ e) (hn : |n| ≤ 2 ^ 53) : (n : ℝ) * 2 ^ e ∈ Binary64 := by
  rcases lt_or_eq_of_le hn with h | h
  · exact ⟨n, e, h, he, rfl⟩
  · rcases abs_choice n with h' | h'
    · rw [h'] at h
      refine ⟨2 ^ 52, e + 1, by norm_num, by omega, ?_⟩
      rw [h, zpow_add₀ (by norm_num)]; push_cast; ring
    · rw [h'] at h
      have : n = -2 ^ 53 := by omega
      refine ⟨-2 ^ 52, e + 1, by norm_num, by omega, ?_⟩
      rw [this, zpow_add₀ (by norm_num)]; push_cast; ring

theorem round_lastBit_bound (z : ℝ) : |roundEven (z / 2 ^ lastBit z)| ≤ 2 ^ 53 := by
  have hp := pow_lastBit_pos z
  have h1 : |z / 2 ^ lastBit z| < 2 ^ (53 : ℕ) := by
    rw [abs_div, abs_of_pos hp, div_lt_iff₀ hp]
    have := abs_lt_lastBit z
    rw [zpow_add₀ (by norm_num)] at this
    calc |z| < _ := this
      _ = 2 ^ (53 : ℕ) * 2 ^ lastBit z := by rw [mul_comm]; norm_cast
  have h2 := roundEven_err (z / 2 ^ lastBit z)
  have h3 : |(roundEven (z / 2 ^ lastBit z) : ℝ)| < 2 ^ 53 + 1 := by
    have := abs_sub_abs_le_abs_sub (roundEven (z / 2 ^ lastBit z) : ℝ) (z / 2 ^ lastBit z)
    have h4 : (2 : ℝ) ^ (53 : ℕ) = 2 ^ 53 := rfl
    linarith
  have h5 : |roundEven (z / 2 ^ lastBit z)| < 2 ^ 53 + 1 := by exact_mod_cast h3
  omega

theorem rnd64_mem (z : ℝ) : rnd64 z ∈ Binary64 := mem_binary64_of_le (le_max_left _ _) (round_lastBit_bound z)

theorem rnd64_lastBit_err (z : ℝ) : |rnd64 z - z| ≤ 2 ^ lastBit z / 2 := by
  have hp := pow_lastBit_pos z
  have h2 := roundEven_err (z / 2 ^ lastBit z)
  have : rnd64 z - z = ((roundEven (z / 2 ^ lastBit z) : ℝ) - z / 2 ^ lastBit z) * 2 ^ lastBit z := by
    unfold rnd64; field_simp
  rw [this, abs_mul, abs_of_pos hp]
  nlinarith

/-- a multiple of the last bit is not nearer -/
theorem rnd64_le_multiple (z : ℝ) (n : ℤ) : |rnd64 z - z| ≤ |(n : ℝ) * 2 ^ lastBit z - z| := by
  have hp := pow_lastBit_pos z
  have h := roundEven_nearest (z / 2 ^ lastBit z) n
  have e1 : rnd64 z - z = ((roundEven (z / 2 ^ lastBit z) : ℝ) - z / 2 ^ lastBit z) * 2 ^ lastBit z := by
    unfold rnd64; field_simp
  have e2 : (n : ℝ) * 2 ^ lastBit z - z = ((n : ℝ) - z / 2 ^ lastBit z) * 2 ^ lastBit z := by field_simp
  rw [e1, e2, abs_mul, abs_mul]
  exact mul_le_mul_of_nonneg_right h (abs_nonneg _)

theorem rnd64_zero : rnd64 0 = 0 := by
  unfold rnd64 roundEven; simp

theorem rnd64_nearest (z : ℝ) (f : ℝ) (hf : f ∈ Binary64) : |rnd64 z - z| ≤ |f - z| := by
  rcases eq_or_ne z 0 with rfl | hz
  · rw [rnd64_zero]; simp
  obtain ⟨m, e, hm, he, rfl⟩ := hf
  by_cases h : lastBit z ≤ e
  · obtain ⟨k, hk⟩ := Int.eq_ofNat_of_zero_le (sub_nonneg.2 h)
    have : (m : ℝ) * 2 ^ e = ((m * 2 ^ k : ℤ) : ℝ) * 2 ^ lastBit z := by
      have : e = (k : ℤ) + lastBit z := by omega
      rw [this, zpow_add₀ (by norm_num), zpow_natCast]
      push_cast; ring
    rw [this]
    exact rnd64_le_multiple z _
  · push Not at h
    have hl : lastBit z = Int.log 2 |z| - 52 := by
      unfold lastBit at *
      rcases max_choice (-1074) (Int.log 2 |z| - 52) with h' | h'
      · rw [h'] at h; omega
      · exact h'
    have hle : (2 : ℝ) ^ (lastBit z + 52) ≤ |z| := by
      have := Int.zpow_log_le_self (b := 2) (by norm_num) (abs_pos.2 hz)
      rw [hl]; simpa using this
    have hf : |(m : ℝ) * 2 ^ e| ≤ 2 ^ (lastBit z + 52) := by
      rw [abs_mul, abs_of_pos (zpow_pos (by norm_num : (0 : ℝ) < 2) e)]
      have h1 : |(m : ℝ)| ≤ 2 ^ (53 : ℤ) := by
        rw [← Int.cast_abs]
        have : ((|m| : ℤ) : ℝ) ≤ ((2 ^ 53 : ℤ) : ℝ) := by exact_mod_cast hm.le
        refine this.trans ?_
        push_cast; norm_cast
      have h2 : (2 : ℝ) ^ e ≤ 2 ^ (lastBit z - 1) := zpow_le_zpow_right₀ (by norm_num) (by omega)
      calc |(m : ℝ)| * 2 ^ e ≤ 2 ^ (53 : ℤ) * 2 ^ (lastBit z - 1) := mul_le_mul h1 h2 (zpow_pos (by norm_num) _).le (by positivity)
        _ = 2 ^ (lastBit z + 52) := by rw [← zpow_add₀ (by norm_num)]; congr 1; ring
    have key : ∃ n : ℤ, |(n : ℝ) * 2 ^ lastBit z - z| = |z| - 2 ^ (lastBit z + 52) := by
      have e52 : (2 : ℝ) ^ (lastBit z + 52) = 2 ^ 52 * 2 ^ lastBit z := by
        rw [zpow_add₀ (by norm_num), mul_comm]; norm_cast
      rcases le_or_gt 0 z with h0 | h0
      · refine ⟨2 ^ 52, ?_⟩
        rw [abs_of_nonneg h0] at hle ⊢
        rw [e52] at hle ⊢
        push_cast
        rw [abs_of_nonpos (by linarith)]; ring
      · refine ⟨-2 ^ 52, ?_⟩
        rw [abs_of_neg h0] at hle ⊢
        rw [e52] at hle ⊢
        push_cast
        rw [abs_of_nonneg (by linarith)]; ring
    obtain ⟨n, hn⟩ := key
    calc |rnd64 z - z| ≤ _ := rnd64_le_multiple z n
      _ = |z| - 2 ^ (lastBit z + 52) := hn
      _ ≤ |z| - |(m : ℝ) * 2 ^ e| := by linarith
      _ ≤ |(m : ℝ) * 2 ^ e - z| := by
        rw [abs_sub_comm]; exact abs_sub_abs_le_abs_sub _ _

/-- **C104, the rounding of IEEE 754.** Rounding to nearest with ties to even is a rounding as assumed in the theorems below. -/
theorem C104_ieee : IsRounding rnd64 where
  mem := rnd64_mem
  nearest := rnd64_nearest
  odd z := by
    unfold rnd64
    rw [lastBit_neg, neg_div, roundEven_neg]
    push_cast; ring

/-! ## properties of all roundings -/

/-- the relative error, `2^-53` -/
noncomputable def ulp : ℝ := 1 / 2 ^ 53

namespace IsRounding

variable {rnd : ℝ → ℝ} (hr : IsRounding rnd)
include hr

theorem fix {f : ℝ} (hf : f ∈ Binary64) : rnd f = f := by
  have := hr.nearest f f hf
  rw [sub_self, abs_zero] at this
  have := abs_nonpos_iff.1 this
  linarith

theorem mono {a b : ℝ} (h : a ≤ b) : rnd a ≤ rnd b := by
  rcases eq_or_lt_of_le h with rfl | h
  · exact le_rfl
  · by_contra hc
    push Not at hc
    have h1 := hr.nearest a _ (hr.mem b)
    have h2 := hr.nearest b _ (hr.mem a)
    rcases abs_cases (rnd a - a) with ⟨e1, _⟩ | ⟨e1, _⟩ <;> rcases abs_cases (rnd b - a) with ⟨e2, _⟩ | ⟨e2, _⟩ <;>
      rcases abs_cases (rnd b - b) with ⟨e3, _⟩ | ⟨e3, _⟩ <;> rcases abs_cases (rnd a - b) with ⟨e4, _⟩ | ⟨e4, _⟩ <;>
      rw [e1, e2] at h1 <;> rw [e3, e4] at h2 <;> linarith

theorem zero : rnd 0 = 0 := by
  have := hr.odd 0
  rw [neg_zero] at this
  linarith

theorem nonneg {z : ℝ} (h : 0 ≤ z) : 0 ≤ rnd z := by rw [← hr.zero]; exact hr.mono h

theorem abs (z : ℝ) : |rnd z| = rnd |z| := by
  rcases le_total 0 z with h | h
  · rw [abs_of_nonneg h, abs_of_nonneg (hr.nonneg h)]
  · rw [abs_of_nonpos h, hr.odd, abs_of_nonpos]
    have := hr.nonneg (neg_nonneg.2 h)
    rw [hr.odd] at this
    linarith

theorem sub_comm (x y : ℝ) : rnd (x - y) = - rnd (y - x) := by rw [← hr.odd]; congr 1; ring

/-- the sign of a difference of binary64 numbers is exact -/
theorem sub_nonneg_iff {x y : ℝ} (hx : x ∈ Binary64) (hy : y ∈ Binary64) : 0 ≤ rnd (y - x) ↔ x ≤ y := by
  constructor
  · intro h
    by_contra hc
    push Not at hc
    obtain ⟨m, e, -, he, rfl⟩ := hx
    obtain ⟨n, g, -, hg, rfl⟩ := hy
    obtain ⟨k, hk⟩ := Int.eq_ofNat_of_zero_le (show 0 ≤ e + 1074 by omega)
    obtain ⟨l, hl⟩ := Int.eq_ofNat_of_zero_le (show 0 ≤ g + 1074 by omega)
    have e1 : (m : ℝ) * 2 ^ e - n * 2 ^ g = ((m * 2 ^ k - n * 2 ^ l : ℤ) : ℝ) * 2 ^ (-1074 : ℤ) := by
      have a1 : e = (k : ℤ) + -1074 := by omega
      have a2 : g = (l : ℤ) + -1074 := by omega
      rw [a1, a2, zpow_add₀ (by norm_num), zpow_add₀ (by norm_num), zpow_natCast, zpow_natCast]
      push_cast; ring
    have hp : (0 : ℝ) < 2 ^ (-1074 : ℤ) := zpow_pos (by norm_num) _
    have h1 : (1 : ℤ) ≤ m * 2 ^ k - n * 2 ^ l := by
      have : 0 < (m : ℝ) * 2 ^ e - n * 2 ^ g := by linarith
      rw [e1] at this
      have : (0 : ℝ) < ((m * 2 ^ k - n * 2 ^ l : ℤ) : ℝ) := by
        by_contra hh
        push Not at hh
        nlinarith
      exact_mod_cast this
    have h2 : (2 : ℝ) ^ (-1074 : ℤ) ≤ (m : ℝ) * 2 ^ e - n * 2 ^ g := by
      rw [e1]
      have : (1 : ℝ) ≤ ((m * 2 ^ k - n * 2 ^ l : ℤ) : ℝ) := by exact_mod_cast h1
      nlinarith
    have h3 := hr.mono h2
    have hmem : (2 : ℝ) ^ (-1074 : ℤ) ∈ Binary64 := ⟨1, -1074, by norm_num, le_rfl, by norm_num⟩
    rw [hr.fix hmem, hr.sub_comm] at h3
    linarith
  · intro h
    exact hr.nonneg (by linarith)

/-- the error of a rounding -/
theorem err (z : ℝ) : |rnd z - z| ≤ ulp * |z| + 2 ^ (-1075 : ℤ) := by
  rcases eq_or_ne z 0 with rfl | hz
  · rw [hr.zero]; simp
  refine (hr.nearest z _ (rnd64_mem z)).trans ((rnd64_lastBit_err z).trans ?_)
  unfold lastBit ulp
  rcases max_choice (-1074) (Int.log 2 |z| - 52) with h | h
  · rw [h]
    have : (2 : ℝ) ^ (-1074 : ℤ) / 2 = 2 ^ (-1075 : ℤ) := by
      rw [show (-1074 : ℤ) = -1075 + 1 by norm_num, zpow_add₀ (by norm_num)]; norm_num
    rw [this]
    have : 0 ≤ 1 / 2 ^ 53 * |z| := by positivity
    linarith
  · rw [h]
    have hp : (0 : ℝ) < 2 ^ (-1075 : ℤ) := zpow_pos (by norm_num) _
    have h1 := Int.zpow_log_le_self (b := 2) (by norm_num) (abs_pos.2 hz)
    have h2 : (2 : ℝ) ^ (Int.log 2 |z| - 52) = 2 ^ (Int.log 2 |z|) / 2 ^ 52 := by
      rw [zpow_sub₀ (by norm_num)]; norm_cast
    rw [h2]
    push_cast at h1
    have : (2 : ℝ) ^ (Int.log 2 |z|) / 2 ^ 52 / 2 = 1 / 2 ^ 53 * 2 ^ (Int.log 2 |z|) := by ring
    rw [this]
    have : 1 / 2 ^ 53 * (2 : ℝ) ^ (Int.log 2 |z|) ≤ 1 / 2 ^ 53 * |z| := mul_le_mul_of_nonneg_left h1 (by positivity)
    linarith

/-- a simple bound of the error -/
theorem err' (z : ℝ) : |rnd z - z| ≤ ulp * (|z| + 1) := by
  have h := hr.err z
  have : (2 : ℝ) ^ (-1075 : ℤ) ≤ ulp := by
    unfold ulp
    rw [one_div, ← zpow_natCast, ← zpow_neg]
    exact zpow_le_zpow_right₀ (by norm_num) (by norm_num)
  linarith

end IsRounding

theorem ulp_pos : 0 < ulp := by unfold ulp; positivity

/-- numbers of the form `m / 2^k` with few bits are binary64 numbers -/
theorem int_mem_binary64 {n : ℤ} (hn : |n| ≤ 2 ^ 53) : (n : ℝ) ∈ Binary64 := by
  have := mem_binary64_of_le (e := 0) (by norm_num) hn
  simpa using this

end Causets
