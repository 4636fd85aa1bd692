import Verif.Model.Float32
import Verif.Props.FloatRound

/-! # C115 — rounding to single precision (and to any other floating point format) -/

namespace Causets

/-- **Specification.** A rounding of real numbers to the numbers in `F`: to a nearest one (any rule for ties that is symmetric in the sign). -/
structure IsRoundingTo (F : Set ℝ) (rnd : ℝ → ℝ) : Prop where
  mem : ∀ z, rnd z ∈ F
  nearest : ∀ z, ∀ f ∈ F, |rnd z - z| ≤ |f - z|
  odd : ∀ z, rnd (-z) = - rnd z

theorem IsRounding.toSet {rnd : ℝ → ℝ} (hr : IsRounding rnd) : IsRoundingTo Binary64 rnd := ⟨hr.mem, hr.nearest, hr.odd⟩

/-! ## ties to even -/

section
variable {p : ℕ} {emin : ℤ}

theorem lastBitOf_neg (z : ℝ) : lastBitOf p emin (-z) = lastBitOf p emin z := by unfold lastBitOf; rw [abs_neg]

theorem pow_lastBitOf_pos (z : ℝ) : (0 : ℝ) < 2 ^ lastBitOf p emin z := zpow_pos (by norm_num) _

theorem abs_lt_lastBitOf (z : ℝ) : |z| < 2 ^ (lastBitOf p emin z + p) := by
  rcases eq_or_ne z 0 with rfl | hz
  · rw [abs_zero]; exact zpow_pos (by norm_num) _
  · have h1 := Int.lt_zpow_succ_log_self (b := 2) (by norm_num) |z|
    refine lt_of_lt_of_le h1 ?_
    push_cast
    refine zpow_le_zpow_right₀ (by norm_num) ?_
    unfold lastBitOf
    have := le_max_right emin (Int.log 2 |z| - (p - 1))
    omega

/-- multiples of the last bit, not too large, are floating point numbers -/
theorem mem_floatNum_of_le (hp : 1 ≤ p) {n e : ℤ} (he : emin ≤ e) (hn : |n| ≤ 2 ^ p) : (n : ℝ) * 2 ^ e ∈ FloatNum p emin := by
  obtain ⟨q, rfl⟩ : ∃ q, p = q + 1 := ⟨p - 1, by omega⟩
  have hq : |(2 : ℤ) ^ q| < 2 ^ (q + 1) := by
    rw [abs_of_pos (by positivity), pow_succ]
    have : (0 : ℤ) < 2 ^ q := by positivity
    linarith
  rcases lt_or_eq_of_le hn with h | h
  · exact ⟨n, e, h, he, rfl⟩
  · rcases abs_choice n with h' | h'
    · rw [h'] at h
      refine ⟨2 ^ q, e + 1, hq, by omega, ?_⟩
      rw [h, zpow_add₀ (by norm_num)]; push_cast; ring
    · rw [h'] at h
      have : n = -2 ^ (q + 1) := by omega
      refine ⟨-2 ^ q, e + 1, by rw [abs_neg]; exact hq, by omega, ?_⟩
      rw [this, zpow_add₀ (by norm_num)]; push_cast; ring

theorem round_lastBitOf_bound (z : ℝ) : |roundEven (z / 2 ^ lastBitOf p emin z)| ≤ 2 ^ p := by
  have hp := pow_lastBitOf_pos (p := p) (emin := emin) z
  have h1 : |z / 2 ^ lastBitOf p emin z| < 2 ^ p := by
    rw [abs_div, abs_of_pos hp, div_lt_iff₀ hp]
    have := abs_lt_lastBitOf (p := p) (emin := emin) z
    rw [zpow_add₀ (by norm_num)] at this
    calc |z| < _ := this
      _ = 2 ^ p * 2 ^ lastBitOf p emin z := by rw [mul_comm]; norm_cast
  have h2 := roundEven_err (z / 2 ^ lastBitOf p emin z)
  have h3 : |(roundEven (z / 2 ^ lastBitOf p emin z) : ℝ)| < 2 ^ p + 1 := by
    have := abs_sub_abs_le_abs_sub (roundEven (z / 2 ^ lastBitOf p emin z) : ℝ) (z / 2 ^ lastBitOf p emin z)
    linarith
  have h5 : |roundEven (z / 2 ^ lastBitOf p emin z)| < 2 ^ p + 1 := by exact_mod_cast h3
  omega

theorem rndOf_mem (hp : 1 ≤ p) (z : ℝ) : rndOf p emin z ∈ FloatNum p emin := mem_floatNum_of_le hp (le_max_left _ _) (round_lastBitOf_bound z)

theorem rndOf_lastBit_err (z : ℝ) : |rndOf p emin z - z| ≤ 2 ^ lastBitOf p emin z / 2 := by
  have hp := pow_lastBitOf_pos (p := p) (emin := emin) z
  have h2 := roundEven_err (z / 2 ^ lastBitOf p emin z)
  have : rndOf p emin z - z = ((roundEven (z / 2 ^ lastBitOf p emin z) : ℝ) - z / 2 ^ lastBitOf p emin z) * 2 ^ lastBitOf p emin z := by
    unfold rndOf; field_simp
  rw [this, abs_mul, abs_of_pos hp]
  nlinarith

theorem rndOf_le_multiple (z : ℝ) (n : ℤ) : |rndOf p emin z - z| ≤ |(n : ℝ) * 2 ^ lastBitOf p emin z - z| := by
  have hp := pow_lastBitOf_pos (p := p) (emin := emin) z
  have h := roundEven_nearest (z / 2 ^ lastBitOf p emin z) n
  have e1 : rndOf p emin z - z = ((roundEven (z / 2 ^ lastBitOf p emin z) : ℝ) - z / 2 ^ lastBitOf p emin z) * 2 ^ lastBitOf p emin z := by
    unfold rndOf; field_simp
  have e2 : (n : ℝ) * 2 ^ lastBitOf p emin z - z = ((n : ℝ) - z / 2 ^ lastBitOf p emin z) * 2 ^ lastBitOf p emin z := by field_simp
  rw [e1, e2, abs_mul, abs_mul]
  exact mul_le_mul_of_nonneg_right h (abs_nonneg _)

theorem rndOf_zero : rndOf p emin 0 = 0 := by
  unfold rndOf roundEven; simp

theorem rndOf_nearest (hp : 1 ≤ p) (z : ℝ) (f : ℝ) (hf : f ∈ FloatNum p emin) : |rndOf p emin z - z| ≤ |f - z| := by
  obtain ⟨q, rfl⟩ : ∃ q, p = q + 1 := ⟨p - 1, by omega⟩
  rcases eq_or_ne z 0 with rfl | hz
  · rw [rndOf_zero]; simp
  obtain ⟨m, e, hm, he, rfl⟩ := hf
  set k := lastBitOf (q + 1) emin z with hk
  by_cases h : k ≤ e
  · obtain ⟨l, hl⟩ := Int.eq_ofNat_of_zero_le (sub_nonneg.2 h)
    have : (m : ℝ) * 2 ^ e = ((m * 2 ^ l : ℤ) : ℝ) * 2 ^ k := by
      have : e = (l : ℤ) + k := by omega
      rw [this, zpow_add₀ (by norm_num), zpow_natCast]
      push_cast; ring
    rw [this]
    exact rndOf_le_multiple z _
  · push Not at h
    have hl : k = Int.log 2 |z| - q := by
      rw [hk] at h ⊢
      unfold lastBitOf at *
      rcases max_choice emin (Int.log 2 |z| - ((q + 1 : ℕ) - 1 : ℤ)) with h' | h'
      · rw [h'] at h; omega
      · rw [h']; push_cast; ring
    have hle : (2 : ℝ) ^ (k + q) ≤ |z| := by
      have := Int.zpow_log_le_self (b := 2) (by norm_num) (abs_pos.2 hz)
      rw [hl]; simpa using this
    have hf : |(m : ℝ) * 2 ^ e| ≤ 2 ^ (k + q) := by
      rw [abs_mul, abs_of_pos (zpow_pos (by norm_num : (0 : ℝ) < 2) e)]
      have h1 : |(m : ℝ)| ≤ 2 ^ ((q : ℤ) + 1) := by
        rw [← Int.cast_abs]
        have : ((|m| : ℤ) : ℝ) ≤ ((2 ^ (q + 1) : ℤ) : ℝ) := by exact_mod_cast hm.le
        refine this.trans ?_
        push_cast; norm_cast
      have h2 : (2 : ℝ) ^ e ≤ 2 ^ (k - 1) := zpow_le_zpow_right₀ (by norm_num) (by omega)
      calc |(m : ℝ)| * 2 ^ e ≤ 2 ^ ((q : ℤ) + 1) * 2 ^ (k - 1) := mul_le_mul h1 h2 (zpow_pos (by norm_num) _).le (by positivity)
        _ = 2 ^ (k + q) := by rw [← zpow_add₀ (by norm_num)]; congr 1; ring
    have key : ∃ n : ℤ, |(n : ℝ) * 2 ^ k - z| = |z| - 2 ^ (k + q) := by
      have e52 : (2 : ℝ) ^ (k + q) = 2 ^ q * 2 ^ k := by
        rw [zpow_add₀ (by norm_num), mul_comm]; norm_cast
      rcases le_or_gt 0 z with h0 | h0
      · refine ⟨2 ^ q, ?_⟩
        rw [abs_of_nonneg h0] at hle ⊢
        rw [e52] at hle ⊢
        push_cast
        rw [abs_of_nonpos (by linarith)]; ring
      · refine ⟨-2 ^ q, ?_⟩
        rw [abs_of_neg h0] at hle ⊢
        rw [e52] at hle ⊢
        push_cast
        rw [abs_of_nonneg (by linarith)]; ring
    obtain ⟨n, hn⟩ := key
    calc |rndOf (q + 1) emin z - z| ≤ _ := rndOf_le_multiple z n
      _ = |z| - 2 ^ (k + q) := hn
      _ ≤ |z| - |(m : ℝ) * 2 ^ e| := by linarith
      _ ≤ |(m : ℝ) * 2 ^ e - z| := by
        rw [abs_sub_comm]; exact abs_sub_abs_le_abs_sub _ _

theorem rndOf_rounding (hp : 1 ≤ p) : IsRoundingTo (FloatNum p emin) (rndOf p emin) where
  mem := rndOf_mem hp
  nearest := rndOf_nearest hp
  odd z := by
    unfold rndOf
    rw [lastBitOf_neg, neg_div, roundEven_neg]
    push_cast; ring

end

/-- **C115, the rounding of IEEE 754.** Rounding to nearest with ties to even is a rounding to `float32` as assumed in the theorems below; the `float32` numbers are among the `float64`
numbers, and the rounding to `float64` of C104 is the one of this family. -/
theorem C115_ieee : IsRoundingTo Binary32 rnd32 ∧ IsRoundingTo Binary64 rnd64 ∧ Binary32 ⊆ Binary64 ∧ rnd64 = rndOf 53 (-1074) := by
  refine ⟨rndOf_rounding (by norm_num), C104_ieee.toSet, ?_, ?_⟩
  · rintro z ⟨m, e, hm, he, rfl⟩
    exact ⟨m, e, lt_of_lt_of_le hm (by norm_num), by omega, rfl⟩
  · funext z
    unfold rnd64 rndOf
    have : lastBit z = lastBitOf 53 (-1074) z := by unfold lastBit lastBitOf; norm_num
    rw [this]

/-! ## properties of all roundings -/

namespace IsRoundingTo

variable {F : Set ℝ} {rnd : ℝ → ℝ} (hr : IsRoundingTo F rnd)
include hr

theorem fix {f : ℝ} (hf : f ∈ F) : rnd f = f := by
  have := hr.nearest f f hf
  rw [sub_self, abs_zero] at this
  have := abs_nonpos_iff.1 this
  linarith

theorem mono {a b : ℝ} (h : a ≤ b) : rnd a ≤ rnd b := by
  rcases eq_or_lt_of_le h with rfl | h
  · exact le_rfl
  · by_contra hc
    push Not at hc
    have h1 := hr.nearest a _ (hr.mem b)
    have h2 := hr.nearest b _ (hr.mem a)
    rcases abs_cases (rnd a - a) with ⟨e1, _⟩ | ⟨e1, _⟩ <;> rcases abs_cases (rnd b - a) with ⟨e2, _⟩ | ⟨e2, _⟩ <;>
      rcases abs_cases (rnd b - b) with ⟨e3, _⟩ | ⟨e3, _⟩ <;> rcases abs_cases (rnd a - b) with ⟨e4, _⟩ | ⟨e4, _⟩ <;>
      rw [e1, e2] at h1 <;> rw [e3, e4] at h2 <;> linarith

theorem zero : rnd 0 = 0 := by
  have := hr.odd 0
  rw [neg_zero] at this
  linarith

theorem nonneg {z : ℝ} (h : 0 ≤ z) : 0 ≤ rnd z := by rw [← hr.zero]; exact hr.mono h

theorem abs (z : ℝ) : |rnd z| = rnd |z| := by
  rcases le_total 0 z with h | h
  · rw [abs_of_nonneg h, abs_of_nonneg (hr.nonneg h)]
  · rw [abs_of_nonpos h, hr.odd, abs_of_nonpos]
    have := hr.nonneg (neg_nonneg.2 h)
    rw [hr.odd] at this
    linarith

theorem sub_comm (x y : ℝ) : rnd (x - y) = - rnd (y - x) := by rw [← hr.odd]; congr 1; ring

end IsRoundingTo

section
variable {p : ℕ} {emin : ℤ} {rnd : ℝ → ℝ} (hp : 1 ≤ p) (hr : IsRoundingTo (FloatNum p emin) rnd)
include hp hr

/-- the sign of a difference of floating point numbers is exact -/
theorem sub_nonneg_floatNum {x y : ℝ} (hx : x ∈ FloatNum p emin) (hy : y ∈ FloatNum p emin) : 0 ≤ rnd (y - x) ↔ x ≤ y := by
  constructor
  · intro h
    by_contra hc
    push Not at hc
    obtain ⟨m, e, -, he, rfl⟩ := hx
    obtain ⟨n, g, -, hg, rfl⟩ := hy
    obtain ⟨k, hk⟩ := Int.eq_ofNat_of_zero_le (show 0 ≤ e - emin by omega)
    obtain ⟨l, hl⟩ := Int.eq_ofNat_of_zero_le (show 0 ≤ g - emin by omega)
    have e1 : (m : ℝ) * 2 ^ e - n * 2 ^ g = ((m * 2 ^ k - n * 2 ^ l : ℤ) : ℝ) * 2 ^ emin := by
      have a1 : e = (k : ℤ) + emin := by omega
      have a2 : g = (l : ℤ) + emin := by omega
      rw [a1, a2, zpow_add₀ (by norm_num), zpow_add₀ (by norm_num), zpow_natCast, zpow_natCast]
      push_cast; ring
    have hp' : (0 : ℝ) < 2 ^ emin := zpow_pos (by norm_num) _
    have h1 : (1 : ℤ) ≤ m * 2 ^ k - n * 2 ^ l := by
      have : 0 < (m : ℝ) * 2 ^ e - n * 2 ^ g := by linarith
      rw [e1] at this
      have : (0 : ℝ) < ((m * 2 ^ k - n * 2 ^ l : ℤ) : ℝ) := by
        by_contra hh
        push Not at hh
        nlinarith
      exact_mod_cast this
    have h2 : (2 : ℝ) ^ emin ≤ (m : ℝ) * 2 ^ e - n * 2 ^ g := by
      rw [e1]
      have : (1 : ℝ) ≤ ((m * 2 ^ k - n * 2 ^ l : ℤ) : ℝ) := by exact_mod_cast h1
      nlinarith
    have h3 := hr.mono h2
    have hmem : (2 : ℝ) ^ emin ∈ FloatNum p emin := ⟨1, emin, by
      rw [abs_one]; exact one_lt_pow₀ (by norm_num) (by omega), le_rfl, by norm_num⟩
    rw [hr.fix hmem, hr.sub_comm] at h3
    linarith
  · intro h
    exact hr.nonneg (by linarith)

/-- the error of a rounding: half a unit in the last place -/
theorem floatNum_err (z : ℝ) : |rnd z - z| ≤ 2 ^ (-(p : ℤ)) * |z| + 2 ^ (emin - 1) := by
  rcases eq_or_ne z 0 with rfl | hz
  · rw [hr.zero]; simp; positivity
  refine (hr.nearest z _ (rndOf_mem hp z)).trans ((rndOf_lastBit_err z).trans ?_)
  have hpos : (0 : ℝ) < 2 ^ (emin - 1) := zpow_pos (by norm_num) _
  have hpos2 : (0 : ℝ) ≤ 2 ^ (-(p : ℤ)) * |z| := mul_nonneg (zpow_pos (by norm_num) _).le (abs_nonneg _)
  unfold lastBitOf
  rcases max_choice emin (Int.log 2 |z| - (p - 1)) with h | h
  · rw [h]
    have : (2 : ℝ) ^ emin / 2 = 2 ^ (emin - 1) := by
      rw [zpow_sub₀ (by norm_num)]; norm_num
    linarith
  · rw [h]
    have h1 := Int.zpow_log_le_self (b := 2) (by norm_num) (abs_pos.2 hz)
    push_cast at h1
    have h2 : (2 : ℝ) ^ (Int.log 2 |z| - ((p : ℤ) - 1)) / 2 = 2 ^ (-(p : ℤ)) * 2 ^ (Int.log 2 |z|) := by
      rw [← zpow_add₀ (by norm_num), show Int.log 2 |z| - ((p : ℤ) - 1) = (-(p : ℤ) + Int.log 2 |z|) + 1 by ring, zpow_add_one₀ (by norm_num)]
      ring
    rw [h2]
    have : (2 : ℝ) ^ (-(p : ℤ)) * 2 ^ (Int.log 2 |z|) ≤ 2 ^ (-(p : ℤ)) * |z| := mul_le_mul_of_nonneg_left h1 (zpow_pos (by norm_num) _).le
    linarith

/-- numbers near the middle of a rounding interval -/
theorem floatNum_eq_of_near {n e : ℤ} {z : ℝ} (he : emin ≤ e) (h1 : 2 ^ (p - 1) < n) (h2 : n < 2 ^ p) (hz : |z - n * 2 ^ e| < 2 ^ e / 2) : rnd z = n * 2 ^ e := by
  obtain ⟨q, rfl⟩ : ∃ q, p = q + 1 := ⟨p - 1, by omega⟩
  rw [Nat.add_sub_cancel] at h1
  have hp : (0 : ℝ) < 2 ^ e := zpow_pos (by norm_num) _
  have hn0 : 0 < n := lt_trans (by positivity) h1
  have hf : (n : ℝ) * 2 ^ e ∈ FloatNum (q + 1) emin := ⟨n, e, by rw [abs_of_pos hn0]; exact h2, he, rfl⟩
  have h3 := hr.nearest z _ hf
  have h4 : |rnd z - n * 2 ^ e| < 2 ^ e := by
    have := abs_sub_le (rnd z) z (n * 2 ^ e)
    rw [abs_sub_comm (n * 2 ^ e : ℝ) z] at h3
    linarith
  obtain ⟨m, g, hm, hg, hmg⟩ := hr.mem z
  by_cases hge : e ≤ g
  · obtain ⟨k, hk⟩ := Int.eq_ofNat_of_zero_le (sub_nonneg.2 hge)
    have e1 : (m : ℝ) * 2 ^ g = ((m * 2 ^ k : ℤ) : ℝ) * 2 ^ e := by
      have : g = (k : ℤ) + e := by omega
      rw [this, zpow_add₀ (by norm_num), zpow_natCast]
      push_cast; ring
    rw [hmg, e1] at h4 ⊢
    rw [← sub_mul, abs_mul, abs_of_pos hp] at h4
    have h5 : |((m * 2 ^ k : ℤ) : ℝ) - n| < 1 := by nlinarith
    have h6 : |m * 2 ^ k - n| < 1 := by exact_mod_cast h5
    have := Int.abs_lt_one_iff.1 h6
    rw [show m * 2 ^ k = n by omega]
  · exfalso
    push Not at hge
    have h5 : |rnd z| ≤ 2 ^ q * 2 ^ e := by
      rw [hmg, abs_mul, abs_of_pos (zpow_pos (by norm_num : (0 : ℝ) < 2) g)]
      have h6 : |(m : ℝ)| ≤ 2 ^ (q + 1) := by
        rw [← Int.cast_abs]; exact_mod_cast hm.le
      have h7 : (2 : ℝ) ^ g ≤ 2 ^ (e - 1) := zpow_le_zpow_right₀ (by norm_num) (by omega)
      have h8 : (2 : ℝ) ^ (e - 1) = 2 ^ e / 2 := by rw [zpow_sub₀ (by norm_num)]; norm_num
      calc |(m : ℝ)| * 2 ^ g ≤ 2 ^ (q + 1) * 2 ^ (e - 1) := mul_le_mul h6 h7 (zpow_pos (by norm_num) _).le (by positivity)
        _ = 2 ^ q * 2 ^ e := by rw [h8, pow_succ]; ring
    have h6 : ((2 : ℝ) ^ q + 1) ≤ n := by exact_mod_cast h1
    have h7 := (abs_lt.1 h4).1
    have h8 := (abs_le.1 h5).2
    nlinarith

end

end Causets
