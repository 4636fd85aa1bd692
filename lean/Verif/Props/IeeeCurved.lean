import Verif.Props.IeeeFlat
import Verif.Props.FloatCurved
import Mathlib.Analysis.Complex.ExponentialBounds
import Mathlib.Analysis.SpecialFunctions.Trigonometric.DerivHyp

/-! # C116 — de Sitter and anti-de Sitter spacetime with `inf`, `nan` and overflow -/

namespace Causets

open NpReal

variable {rnd : ℝ → ℝ}

/-! ## the embedding coordinates of one point -/

/-- the embedding coordinates of a point of de Sitter spacetime, as computed -/
noncomputable def dsEmbed (rnd : ℝ → ℝ) (lib : MathLib) (dim : ℕ) (alpha alphaSq : ℝ) (x : FPoint) : Except Err (NpReal × NpReal) := do
  let amp ← mathSqrt lib.sqrt (subF rnd (fin alphaSq) (normSqIeee rnd dim x))
  let s ← mathSinh lib.sinh (divF rnd alpha (x 0))
  let c ← mathCosh lib.cosh (divF rnd alpha (x 0))
  return (mulF rnd amp s, mulF rnd amp c)

/-- the embedding coordinates of a point of anti-de Sitter spacetime, as computed -/
noncomputable def adsEmbed (rnd : ℝ → ℝ) (lib : MathLib) (dim : ℕ) (alpha alphaSq : ℝ) (x : FPoint) : Except Err (NpReal × NpReal) := do
  let amp ← mathSqrt lib.sqrt (addF rnd (fin alphaSq) (normSqIeee rnd dim x))
  let s ← mathTrig lib.sin (divF rnd alpha (x 0))
  let c ← mathTrig lib.cos (divF rnd alpha (x 0))
  return (mulF rnd amp s, mulF rnd amp c)

theorem dsIeee_ok_iff (lib : MathLib) (eps : ℝ) (dim : ℕ) (alpha alphaSq : ℝ) (x y : FPoint)
    (hx : (normSqIeee rnd dim x).ge (fin alphaSq) = false) (hy : (normSqIeee rnd dim y).ge (fin alphaSq) = false) (r : Bool × Bool) :
    causalityDSIeee rnd lib eps dim alpha alphaSq x y = .ok r ↔ ∃ p q l d, dsEmbed rnd lib dim alpha alphaSq x = .ok p ∧ dsEmbed rnd lib dim alpha alphaSq y = .ok q ∧
      pySq lib.sq (subF rnd q.1 p.1) = .ok l ∧ pySq lib.sq (subF rnd q.2 p.2) = .ok d ∧
      r = ((subF rnd q.1 p.1).ge (fin 0) && l.ge (subF rnd (addF rnd (spaceSqIeee rnd dim x y) d) (fin eps)),
        (subF rnd q.1 p.1).lt (fin 0) && l.ge (subF rnd (addF rnd (spaceSqIeee rnd dim x y) d) (fin eps))) := by
  unfold causalityDSIeee dsEmbed
  simp only [hx, hy, Bool.or_self, Bool.false_eq_true, if_false, bind, Except.bind, pure, Except.pure]
  cases mathSqrt lib.sqrt (subF rnd (fin alphaSq) (normSqIeee rnd dim x)) <;> cases mathSqrt lib.sqrt (subF rnd (fin alphaSq) (normSqIeee rnd dim y)) <;>
    cases mathSinh lib.sinh (divF rnd alpha (x 0)) <;> cases mathCosh lib.cosh (divF rnd alpha (x 0)) <;>
    cases mathSinh lib.sinh (divF rnd alpha (y 0)) <;> cases mathCosh lib.cosh (divF rnd alpha (y 0)) <;> simp
  rename_i ax ay sx cx sy cy
  cases pySq lib.sq (subF rnd (mulF rnd ay sy) (mulF rnd ax sx)) <;> cases pySq lib.sq (subF rnd (mulF rnd ay cy) (mulF rnd ax cx)) <;> simp [eq_comm]

theorem adsIeee_ok_iff (lib : MathLib) (eps : ℝ) (dim : ℕ) (alpha alphaSq : ℝ) (x y : FPoint) (r : Bool × Bool) :
    causalityAdSIeee rnd lib eps dim alpha alphaSq x y = .ok r ↔ ∃ p q l d, adsEmbed rnd lib dim alpha alphaSq x = .ok p ∧ adsEmbed rnd lib dim alpha alphaSq y = .ok q ∧
      pySq lib.sq (subF rnd q.1 p.1) = .ok l ∧ pySq lib.sq (subF rnd q.2 p.2) = .ok d ∧
      r = ((subF rnd q.1 p.1).ge (fin 0) && (addF rnd l d).ge (subF rnd (spaceSqIeee rnd dim x y) (fin eps)),
        (subF rnd q.1 p.1).lt (fin 0) && (addF rnd l d).ge (subF rnd (spaceSqIeee rnd dim x y) (fin eps))) := by
  unfold causalityAdSIeee adsEmbed
  simp only [bind, Except.bind, pure, Except.pure]
  cases mathSqrt lib.sqrt (addF rnd (fin alphaSq) (normSqIeee rnd dim x)) <;> cases mathSqrt lib.sqrt (addF rnd (fin alphaSq) (normSqIeee rnd dim y)) <;>
    cases mathTrig lib.sin (divF rnd alpha (x 0)) <;> cases mathTrig lib.cos (divF rnd alpha (x 0)) <;>
    cases mathTrig lib.sin (divF rnd alpha (y 0)) <;> cases mathTrig lib.cos (divF rnd alpha (y 0)) <;> simp
  rename_i ax ay sx cx sy cy
  cases pySq lib.sq (subF rnd (mulF rnd ay sy) (mulF rnd ax sx)) <;> cases pySq lib.sq (subF rnd (mulF rnd ay cy) (mulF rnd ax cx)) <;> simp [eq_comm]

theorem pySq_neg {sq : ℝ → ℝ} (h : ∀ z, sq (-z) = sq z) (a : NpReal) : pySq sq a.neg = pySq sq a := by
  cases a <;> simp [neg, pySq, h]

/-- the directions from the form of the answers -/
theorem directions_bool {d : NpReal} {t : Bool} {r s : Bool × Bool} (hr : r = (d.ge (fin 0) && t, d.lt (fin 0) && t)) (hs : s = (d.neg.ge (fin 0) && t, d.neg.lt (fin 0) && t)) :
    ¬ (r.1 = true ∧ r.2 = true) ∧ (r.2 = true ↔ s.1 = true ∧ r.1 = false) := by
  subst hr hs
  simp only [Bool.and_eq_true, Bool.and_eq_false_iff]
  refine ⟨fun h => ge_lt_zero _ ⟨h.1.1, h.2.1⟩, ?_⟩
  rw [lt_zero_iff]
  constructor
  · rintro ⟨⟨h1, h2⟩, h3⟩; exact ⟨⟨h1, h3⟩, .inl h2⟩
  · rintro ⟨⟨h1, h3⟩, h2⟩
    refine ⟨⟨h1, ?_⟩, h3⟩
    rcases h2 with h2 | h2
    · exact h2
    · rw [h3] at h2; exact absurd h2 (by decide)

theorem exists_error_iff {α : Type*} {a : Except Err α} : (∃ e, a = .error e) ↔ ∀ r, a ≠ .ok r := by
  cases a <;> simp

/-- **C116, directions in de Sitter and anti-de Sitter spacetime.** With rounding and overflow, for points with any binary64 coordinates and any mathematical library with an even square: the
answer is never both directions, the second answer means "the second point precedes the first, and not conversely"; and if the call raises an exception, so does the call with exchanged points. -/
theorem C116_curved_directions (hr : IsRounding rnd) (lib : MathLib) (hsq : ∀ z, lib.sq (-z) = lib.sq z) (eps : ℝ) (dim : ℕ) (alpha alphaSq : ℝ) (x y : FPoint) :
    ∀ c ∈ [causalityDSIeee rnd lib eps dim alpha alphaSq, causalityAdSIeee rnd lib eps dim alpha alphaSq],
      (∀ r, c x y = .ok r → ¬ (r.1 = true ∧ r.2 = true)) ∧
      (∀ r s, c x y = .ok r → c y x = .ok s → (r.2 = true ↔ s.1 = true ∧ r.1 = false)) ∧
      ((∃ e, c x y = .error e) ↔ ∃ e, c y x = .error e) := by
  have hB : ∀ x y : FPoint, (normSqIeee rnd dim x).ge (fin alphaSq) = true ∨ (normSqIeee rnd dim y).ge (fin alphaSq) = true →
      causalityDSIeee rnd lib eps dim alpha alphaSq x y = .ok (false, false) := by
    intro x y h
    unfold causalityDSIeee
    dsimp only
    rw [if_pos (by simpa using h)]
  intro c hc
  simp only [List.mem_cons, List.not_mem_nil, or_false] at hc
  rcases hc with rfl | rfl
  · by_cases hh : (normSqIeee rnd dim x).ge (fin alphaSq) = true ∨ (normSqIeee rnd dim y).ge (fin alphaSq) = true
    · rw [hB x y hh, hB y x hh.symm]
      refine ⟨?_, ?_, by simp⟩
      · rintro r h; obtain rfl := Except.ok.inj h; simp
      · rintro r s h h'; obtain rfl := Except.ok.inj h; obtain rfl := Except.ok.inj h'; simp
    · push Not at hh
      have h1 : (normSqIeee rnd dim x).ge (fin alphaSq) = false := by simpa using hh.1
      have h2 : (normSqIeee rnd dim y).ge (fin alphaSq) = false := by simpa using hh.2
      have swap : ∀ x y : FPoint, (normSqIeee rnd dim x).ge (fin alphaSq) = false → (normSqIeee rnd dim y).ge (fin alphaSq) = false → ∀ r,
          causalityDSIeee rnd lib eps dim alpha alphaSq x y = .ok r → ∃ s d t, causalityDSIeee rnd lib eps dim alpha alphaSq y x = .ok s ∧
          r = (NpReal.ge d (fin 0) && t, NpReal.lt d (fin 0) && t) ∧ s = (d.neg.ge (fin 0) && t, d.neg.lt (fin 0) && t) := by
        intro x y h1 h2 r h
        obtain ⟨p, q, l, d, hp, hq, hl, hd, rfl⟩ := (dsIeee_ok_iff lib eps dim alpha alphaSq x y h1 h2 r).1 h
        refine ⟨_, subF rnd q.1 p.1, _, (dsIeee_ok_iff lib eps dim alpha alphaSq y x h2 h1 _).2 ⟨q, p, l, d, hq, hp, ?_, ?_, rfl⟩, rfl, ?_⟩
        · rw [subF_comm hr, pySq_neg hsq, hl]
        · rw [subF_comm hr, pySq_neg hsq, hd]
        · rw [spaceSqIeee_symm hr, ← subF_comm hr]
      refine ⟨fun r h => ?_, fun r s h h' => ?_, ?_⟩
      · obtain ⟨s, d, t, _, e1, e2⟩ := swap x y h1 h2 r h
        exact (directions_bool e1 e2).1
      · obtain ⟨s', d, t, e0, e1, e2⟩ := swap x y h1 h2 r h
        rw [h'] at e0
        obtain rfl := Except.ok.inj e0
        exact (directions_bool e1 e2).2
      · rw [exists_error_iff, exists_error_iff]
        constructor
        · intro h r hr
          obtain ⟨s, _, _, e, _⟩ := swap y x h2 h1 r hr
          exact h s e
        · intro h r hr
          obtain ⟨s, _, _, e, _⟩ := swap x y h1 h2 r hr
          exact h s e
  · have swap : ∀ x y : FPoint, ∀ r,
        causalityAdSIeee rnd lib eps dim alpha alphaSq x y = .ok r → ∃ s d t, causalityAdSIeee rnd lib eps dim alpha alphaSq y x = .ok s ∧
        r = (NpReal.ge d (fin 0) && t, NpReal.lt d (fin 0) && t) ∧ s = (d.neg.ge (fin 0) && t, d.neg.lt (fin 0) && t) := by
      intro x y r h
      obtain ⟨p, q, l, d, hp, hq, hl, hd, rfl⟩ := (adsIeee_ok_iff lib eps dim alpha alphaSq x y r).1 h
      refine ⟨_, subF rnd q.1 p.1, _, (adsIeee_ok_iff lib eps dim alpha alphaSq y x _).2 ⟨q, p, l, d, hq, hp, ?_, ?_, rfl⟩, rfl, ?_⟩
      · rw [subF_comm hr, pySq_neg hsq, hl]
      · rw [subF_comm hr, pySq_neg hsq, hd]
      · rw [spaceSqIeee_symm hr, ← subF_comm hr]
    refine ⟨fun r h => ?_, fun r s h h' => ?_, ?_⟩
    · obtain ⟨s, d, t, _, e1, e2⟩ := swap x y r h
      exact (directions_bool e1 e2).1
    · obtain ⟨s', d, t, e0, e1, e2⟩ := swap x y r h
      rw [h'] at e0
      obtain rfl := Except.ok.inj e0
      exact (directions_bool e1 e2).2
    · rw [exists_error_iff, exists_error_iff]
      constructor
      · intro h r hr
        obtain ⟨s, _, _, e, _⟩ := swap y x r hr
        exact h s e
      · intro h r hr
        obtain ⟨s, _, _, e, _⟩ := swap x y r hr
        exact h s e

/-! ## nan -/

theorem normSqIeee_nan {dim i : ℕ} (h1 : 1 ≤ i) (h2 : i < dim) {x : FPoint} (h : x i = nan) : normSqIeee rnd dim x = nan :=
  sumF_nan (List.mem_map.2 ⟨i, List.mem_range'_1.2 ⟨h1, by omega⟩, by rw [h]; rfl⟩)

@[simp] theorem mulF_nan_left (b : NpReal) : mulF rnd nan b = nan := by cases b <;> rfl
@[simp] theorem mulF_nan_right (a : NpReal) : mulF rnd a nan = nan := by cases a <;> rfl

theorem dsEmbed_nan (lib : MathLib) {dim i : ℕ} (alpha alphaSq : ℝ) (hi : i < dim) {x : FPoint} (h : x i = nan) {p : NpReal × NpReal}
    (hp : dsEmbed rnd lib dim alpha alphaSq x = .ok p) : p.1 = nan := by
  unfold dsEmbed at hp
  simp only [bind, Except.bind, pure, Except.pure] at hp
  rcases Nat.eq_zero_or_pos i with rfl | h0
  · rw [h] at hp
    cases hs : mathSqrt lib.sqrt (subF rnd (fin alphaSq) (normSqIeee rnd dim x)) with
    | error e => rw [hs] at hp; simp at hp
    | ok a =>
      rw [hs] at hp
      simp only [divF, mathSinh, mathCosh, mulF_nan_right, Except.ok.injEq] at hp
      rw [← hp]
  · rw [normSqIeee_nan h0 hi h] at hp
    simp only [subF_nan_right, mathSqrt] at hp
    cases hs : mathSinh lib.sinh (divF rnd alpha (x 0)) with
    | error e => rw [hs] at hp; simp at hp
    | ok s =>
      cases hc : mathCosh lib.cosh (divF rnd alpha (x 0)) with
      | error e => rw [hs, hc] at hp; simp at hp
      | ok c =>
        rw [hs, hc] at hp
        simp only [mulF_nan_left, Except.ok.injEq] at hp
        rw [← hp]

theorem adsEmbed_nan (lib : MathLib) {dim i : ℕ} (alpha alphaSq : ℝ) (hi : i < dim) {x : FPoint} (h : x i = nan) {p : NpReal × NpReal}
    (hp : adsEmbed rnd lib dim alpha alphaSq x = .ok p) : p.1 = nan := by
  unfold adsEmbed at hp
  simp only [bind, Except.bind, pure, Except.pure] at hp
  rcases Nat.eq_zero_or_pos i with rfl | h0
  · rw [h] at hp
    cases hs : mathSqrt lib.sqrt (addF rnd (fin alphaSq) (normSqIeee rnd dim x)) with
    | error e => rw [hs] at hp; simp at hp
    | ok a =>
      rw [hs] at hp
      simp only [divF, mathTrig, mulF_nan_right, Except.ok.injEq] at hp
      rw [← hp]
  · rw [normSqIeee_nan h0 hi h] at hp
    simp only [addF_nan_right, mathSqrt] at hp
    cases hs : mathTrig lib.sin (divF rnd alpha (x 0)) with
    | error e => rw [hs] at hp; simp at hp
    | ok s =>
      cases hc : mathTrig lib.cos (divF rnd alpha (x 0)) with
      | error e => rw [hs, hc] at hp; simp at hp
      | ok c =>
        rw [hs, hc] at hp
        simp only [mulF_nan_left, Except.ok.injEq] at hp
        rw [← hp]

/-- **C116, nan in de Sitter and anti-de Sitter spacetime.** If a coordinate of one of the points is `nan` the answer, if there is one, is "not related". -/
theorem C116_curved_nan (lib : MathLib) (eps : ℝ) {dim i : ℕ} (alpha alphaSq : ℝ) (hi : i < dim) (x y : FPoint) (h : x i = nan ∨ y i = nan) :
    ∀ c ∈ [causalityDSIeee rnd lib eps dim alpha alphaSq, causalityAdSIeee rnd lib eps dim alpha alphaSq], ∀ r, c x y = .ok r → r = (false, false) := by
  intro c hc r hc'
  simp only [List.mem_cons, List.not_mem_nil, or_false] at hc
  rcases hc with rfl | rfl
  · by_cases hh : (normSqIeee rnd dim x).ge (fin alphaSq) = true ∨ (normSqIeee rnd dim y).ge (fin alphaSq) = true
    · unfold causalityDSIeee at hc'
      dsimp only at hc'
      rw [if_pos (by simpa using hh)] at hc'
      exact (Except.ok.inj hc').symm
    · push Not at hh
      obtain ⟨p, q, l, d, hp, hq, hl, hd, rfl⟩ := (dsIeee_ok_iff lib eps dim alpha alphaSq x y (by simpa using hh.1) (by simpa using hh.2) r).1 hc'
      rcases h with h | h
      · rw [dsEmbed_nan lib alpha alphaSq hi h hp]; simp
      · rw [dsEmbed_nan lib alpha alphaSq hi h hq]; simp
  · obtain ⟨p, q, l, d, hp, hq, hl, hd, rfl⟩ := (adsIeee_ok_iff lib eps dim alpha alphaSq x y r).1 hc'
    rcases h with h | h
    · rw [adsEmbed_nan lib alpha alphaSq hi h hp]; simp
    · rw [adsEmbed_nan lib alpha alphaSq hi h hq]; simp

/-! ## exceptions -/

set_option exponentiation.threshold 2000 in
theorem exp_712 : (2 : ℝ) ^ 1027 ≤ Real.exp 712 := by
  have h1 := Real.exp_one_gt_d9
  have h2 : Real.exp 712 = (Real.exp 1 ^ 8) ^ 89 := by
    rw [← Real.exp_nat_mul, ← Real.exp_nat_mul]; norm_num
  have h3 : (2980 : ℝ) ≤ Real.exp 1 ^ 8 := le_trans (by norm_num) (pow_le_pow_left₀ (by norm_num) h1.le 8)
  rw [h2]
  exact le_trans (by norm_num) (pow_le_pow_left₀ (by norm_num) h3 89)

theorem sinh_712 {z : ℝ} (h : 712 ≤ |z|) : 2 * huge ≤ |Real.sinh z| := by
  rw [Real.abs_sinh]
  refine le_trans ?_ (Real.sinh_le_sinh.2 h)
  rw [Real.sinh_eq]
  have h1 := exp_712
  have h2 : Real.exp (-712) ≤ 1 := Real.exp_le_one_iff.2 (by norm_num)
  have e : (2 : ℝ) ^ 1027 = 8 * huge := by unfold huge; rw [show 1027 = 1024 + 3 by norm_num, pow_add]; ring
  rw [e] at h1
  have h3 : 1 ≤ huge := one_le_pow₀ (by norm_num)
  clear e
  linarith

theorem normSqIeee_fin (hr : IsRounding rnd) {dim k : ℕ} (hk : 2 * k ≤ 1002) (hd : dim ≤ 2 ^ 20) {x : Point} (hx : ∀ i < dim, |x i| ≤ 2 ^ k) :
    normSqIeee rnd dim (fun i => fin (x i)) = fin (flNormSq rnd dim x) ∧ |flNormSq rnd dim x| ≤ 2 ^ (2 * k + 20) := by
  refine sumF_fin hr hk (forall₂_map fun i hi => ?_) (by rw [List.length_map, List.length_range']; omega)
  have hi := List.mem_range'_1.1 hi
  exact sqF_fin hr (k := k) (by omega) (hx i (by omega))

theorem flSum_nonneg (hr : IsRounding rnd) {l : List ℝ} (h : ∀ a ∈ l, 0 ≤ a) : 0 ≤ flSum rnd l := by
  have key : ∀ (l : List ℝ) (s : ℝ), 0 ≤ s → (∀ a ∈ l, 0 ≤ a) → 0 ≤ l.foldl (fun s q => rnd (s + q)) s := by
    intro l
    induction l with
    | nil => intro s hs _; exact hs
    | cons a l ih => intro s hs h; exact ih _ (hr.nonneg (add_nonneg hs (h a (by simp)))) fun b hb => h b (by simp [hb])
  exact key l 0 le_rfl h

theorem flNormSq_nonneg' (hr : IsRounding rnd) (dim : ℕ) (x : Point) : 0 ≤ flNormSq rnd dim x :=
  flSum_nonneg hr fun a ha => by
    obtain ⟨i, _, rfl⟩ := List.mem_map.1 ha
    exact hr.nonneg (sq_nonneg _)

theorem mathSqrt_fin {f : ℝ → ℝ} {a : ℝ} (h : 0 ≤ a) : mathSqrt f (fin a) = .ok (fin (f a)) := by
  unfold mathSqrt; simp [test, not_lt.2 h]

theorem mathSinh_fin (f : ℝ → ℝ) (a : ℝ) : (huge ≤ |f a| ∧ mathSinh f (fin a) = .error .overflowError) ∨ (|f a| < huge ∧ mathSinh f (fin a) = .ok (fin (f a))) := by
  unfold mathSinh
  rcases le_or_gt huge |f a| with h | h
  · exact .inl ⟨h, by simp [test, h]⟩
  · exact .inr ⟨h, by simp [test, not_le.2 h]⟩

theorem mathCosh_fin (f : ℝ → ℝ) (a : ℝ) : (huge ≤ |f a| ∧ mathCosh f (fin a) = .error .overflowError) ∨ (|f a| < huge ∧ mathCosh f (fin a) = .ok (fin (f a))) := by
  unfold mathCosh
  rcases le_or_gt huge |f a| with h | h
  · exact .inl ⟨h, by simp [test, h]⟩
  · exact .inr ⟨h, by simp [test, not_le.2 h]⟩

theorem pySq_fin (f : ℝ → ℝ) (a : ℝ) : (huge ≤ |f a| ∧ pySq f (fin a) = .error .overflowError) ∨ (|f a| < huge ∧ pySq f (fin a) = .ok (fin (f a))) := by
  unfold pySq
  rcases le_or_gt huge |f a| with h | h
  · exact .inl ⟨h, by simp [test, h]⟩
  · exact .inr ⟨h, by simp [test, not_le.2 h]⟩

theorem divF_fin (hr : IsRounding rnd) {alpha a : ℝ} {k : ℕ} (hk : k < 1024) (h : |a / alpha| ≤ 2 ^ k) : divF rnd alpha (fin a) = fin (rnd (a / alpha)) :=
  cap_of_lt ((hr.abs_le_pow h).trans_lt (pow_lt_huge hk))

/-- **C116, refuted sentence: de Sitter spacetime raises.** For two points inside of the horizon one of which has a time of `712 alpha` or more in absolute value (up to `2^490`), `math.sinh` raises
OverflowError; whatever the causal relation of the points is. -/
theorem C116_deSitter_overflow (hr : IsRounding rnd) (lib : MathLib) (hl : lib.Accurate) (eps : ℝ) {dim : ℕ} (hd0 : 1 ≤ dim) (hd : dim ≤ 2 ^ 20)
    {alpha alphaSq : ℝ} (ha : (2 : ℝ) ^ (-500 : ℤ) ≤ alpha) (haSq : |alphaSq| ≤ 2 ^ 1000) (x y : Point) (hx : ∀ i < dim, |x i| ≤ 2 ^ 490) (hy : ∀ i < dim, |y i| ≤ 2 ^ 490)
    (hxi : flNormSq rnd dim x < alphaSq) (hyi : flNormSq rnd dim y < alphaSq) (h : 712 * alpha ≤ |x 0| ∨ 712 * alpha ≤ |y 0|) :
    causalityDSIeee rnd lib eps dim alpha alphaSq (fun i => fin (x i)) (fun i => fin (y i)) = .error .overflowError := by
  have apos : 0 < alpha := lt_of_lt_of_le (by positivity) ha
  have hdiv : ∀ {a : ℝ}, |a| ≤ 2 ^ 490 → divF rnd alpha (fin a) = fin (rnd (a / alpha)) := by
    intro a h
    refine divF_fin hr (k := 990) (by norm_num) ?_
    rw [abs_div, abs_of_pos apos, div_le_iff₀ apos]
    have e : (2 : ℝ) ^ 990 * 2 ^ (-500 : ℤ) = 2 ^ 490 := by
      rw [← zpow_natCast, ← zpow_natCast, ← zpow_add₀ (by norm_num)]; norm_num
    calc |a| ≤ 2 ^ 490 := h
      _ = 2 ^ 990 * 2 ^ (-500 : ℤ) := e.symm
      _ ≤ _ := mul_le_mul_of_nonneg_left ha (by positivity)
  have hbig : ∀ {a : ℝ}, 712 * alpha ≤ |a| → huge ≤ |lib.sinh (rnd (a / alpha))| := by
    intro a h
    have h1 : 712 ≤ |rnd (a / alpha)| := by
      rw [hr.abs, ← hr.fix (show (712 : ℝ) ∈ Binary64 by exact_mod_cast int_mem_binary64 (n := 712) (by norm_num))]
      refine hr.mono ?_
      rw [abs_div, abs_of_pos apos, le_div_iff₀ apos]; exact h
    have h2 := sinh_712 h1
    have h3 := hl.sinh (rnd (a / alpha))
    have h5 : 2 * ulp * (|Real.sinh (rnd (a / alpha))| + 1) ≤ |Real.sinh (rnd (a / alpha))| / 2 := by
      have := mul_le_mul_of_nonneg_right (show 2 * ulp ≤ 1 / 4 by linarith [ulp_small]) (by positivity : 0 ≤ |Real.sinh (rnd (a / alpha))| + 1)
      have : (1 : ℝ) ≤ huge := one_le_pow₀ (by norm_num)
      linarith
    have h4 : |Real.sinh (rnd (a / alpha))| ≤ |lib.sinh (rnd (a / alpha))| + |lib.sinh (rnd (a / alpha)) - Real.sinh (rnd (a / alpha))| := by
      have := abs_sub (lib.sinh (rnd (a / alpha))) (lib.sinh (rnd (a / alpha)) - Real.sinh (rnd (a / alpha)))
      simpa using this
    linarith
  have hnorm : ∀ {x : Point}, (∀ i < dim, |x i| ≤ 2 ^ 490) → flNormSq rnd dim x < alphaSq →
      (normSqIeee rnd dim fun i => fin (x i)).ge (fin alphaSq) = false ∧ ∃ b, mathSqrt lib.sqrt (subF rnd (fin alphaSq) (normSqIeee rnd dim fun i => fin (x i))) = .ok b := by
    intro x hx hxi
    obtain ⟨e, e'⟩ := normSqIeee_fin hr (k := 490) (by norm_num) hd hx
    rw [e]
    refine ⟨by simp [NpReal.ge, test, hxi], fin (lib.sqrt (rnd (alphaSq - flNormSq rnd dim x))), ?_⟩
    rw [(subF_fin hr (k := 1000) (by norm_num) haSq e').1]
    exact mathSqrt_fin (hr.nonneg (by linarith))
  obtain ⟨gx, bx, hbx⟩ := hnorm hx hxi
  obtain ⟨gy, b_y, hby⟩ := hnorm hy hyi
  unfold causalityDSIeee
  simp only [gx, gy, Bool.or_self, Bool.false_eq_true, if_false, bind, Except.bind, pure, Except.pure, hbx, hby, hdiv (hx 0 hd0), hdiv (hy 0 hd0)]
  rcases mathSinh_fin lib.sinh (rnd (x 0 / alpha)) with ⟨_, e⟩ | ⟨l, e⟩ <;> rw [e]
  rcases mathCosh_fin lib.cosh (rnd (x 0 / alpha)) with ⟨_, e⟩ | ⟨_, e⟩ <;> rw [e]
  rcases h with h | h
  · exact absurd (hbig h) (not_le.2 l)
  · rcases mathSinh_fin lib.sinh (rnd (y 0 / alpha)) with ⟨_, e⟩ | ⟨l, e⟩
    · rw [e]
    · exact absurd (hbig h) (not_le.2 l)

theorem normSqIeee_nonNeg (hr : IsRounding rnd) (dim : ℕ) (x : FPoint) : (normSqIeee rnd dim x).NonNeg ∨ normSqIeee rnd dim x = nan := by
  by_cases h : ∃ i, 1 ≤ i ∧ i < dim ∧ x i = nan
  · obtain ⟨i, h1, h2, h3⟩ := h
    exact .inr (normSqIeee_nan h1 h2 h3)
  · push Not at h
    refine .inl (sumF_nonNeg hr fun a ha => ?_)
    obtain ⟨i, hi, rfl⟩ := List.mem_map.1 ha
    have hi := List.mem_range'_1.1 hi
    exact sqF_nonNeg (fun z => hr.nonneg (sq_nonneg z)) (h i (by omega) (by omega))

/-- **C116, infinite times in anti-de Sitter spacetime.** If the time of one of the points is infinite, `math.sin` raises ValueError. -/
theorem C116_antiDeSitter_infinite (hr : IsRounding rnd) (lib : MathLib) (eps : ℝ) (dim : ℕ) (alpha : ℝ) {alphaSq : ℝ} (ha : 0 ≤ alphaSq) (x y : FPoint)
    (h : (x 0 = pinf ∨ x 0 = ninf) ∨ (y 0 = pinf ∨ y 0 = ninf)) : causalityAdSIeee rnd lib eps dim alpha alphaSq x y = .error .valueError := by
  have hs : ∀ x : FPoint, ∃ b, mathSqrt lib.sqrt (addF rnd (fin alphaSq) (normSqIeee rnd dim x)) = .ok b := by
    intro x
    rcases normSqIeee_nonNeg hr dim x with h | h
    · have h1 := addF_nonNeg hr (a := fin alphaSq) ha h
      generalize addF rnd (fin alphaSq) (normSqIeee rnd dim x) = z at h1
      cases z <;> simp only [NpReal.NonNeg] at h1
      · exact ⟨_, rfl⟩
      · exact ⟨_, mathSqrt_fin h1⟩
    · rw [h, addF_nan_right]; exact ⟨_, rfl⟩
  have ht : ∀ {a : NpReal} (f : ℝ → ℝ), a = pinf ∨ a = ninf → mathTrig f (divF rnd alpha a) = .error .valueError := by
    rintro a f (rfl | rfl) <;> unfold divF <;> split_ifs <;> rfl
  have ht' : ∀ (a : NpReal) (f : ℝ → ℝ), mathTrig f a = .error .valueError ∨ ∃ b, mathTrig f a = .ok b := by
    intro a f; cases a <;> simp [mathTrig]
  obtain ⟨bx, hbx⟩ := hs x
  obtain ⟨b_y, hby⟩ := hs y
  unfold causalityAdSIeee
  simp only [bind, Except.bind, pure, Except.pure, hbx, hby]
  rcases ht' (divF rnd alpha (x 0)) lib.sin with e | ⟨b, e⟩ <;> rw [e]
  rcases ht' (divF rnd alpha (x 0)) lib.cos with e' | ⟨b, e'⟩ <;> rw [e']
  rcases h with h | h
  · rw [ht _ h] at e; simp at e
  · rw [ht _ h]

set_option exponentiation.threshold 2000 in
theorem exp_357 : (2 : ℝ) ^ 515 ≤ Real.exp 357 := by
  have h1 := Real.exp_one_gt_d9
  have h2 : Real.exp 357 = (Real.exp 1 ^ 3) ^ 119 := by
    rw [← Real.exp_nat_mul, ← Real.exp_nat_mul]; norm_num
  have h3 : (20.0855 : ℝ) ≤ Real.exp 1 ^ 3 := le_trans (by norm_num) (pow_le_pow_left₀ (by norm_num) h1.le 3)
  rw [h2]
  exact le_trans (by norm_num) (pow_le_pow_left₀ (by norm_num) h3 119)

set_option exponentiation.threshold 2000 in
theorem exp_709 : Real.exp 709 ≤ (2 : ℝ) ^ 1023 := by
  have h1 := Real.exp_one_lt_d9
  have h2 : Real.exp 709 = Real.exp 1 ^ 709 := by rw [← Real.exp_nat_mul]; norm_num
  rw [h2]
  exact le_trans (pow_le_pow_left₀ (Real.exp_pos 1).le h1.le 709) (by norm_num)

set_option exponentiation.threshold 2000 in
theorem exp_338 : Real.exp 338 ≤ (2 : ℝ) ^ 488 := by
  have h1 := Real.exp_one_lt_d9
  have h2 : Real.exp 338 = Real.exp 1 ^ 338 := by rw [← Real.exp_nat_mul]; norm_num
  rw [h2]
  exact le_trans (pow_le_pow_left₀ (Real.exp_pos 1).le h1.le 338) (by norm_num)

/-- **C116, refuted sentence: a causal relation in de Sitter spacetime that raises.** In de Sitter spacetime with radius 1 (the default), for every binary64 time from 357 to 709 the point at this
time in the centre is in the causal future of the origin, but the causality function raises OverflowError. -/
theorem C116_deSitter_refuted (hr : IsRounding rnd) (lib : MathLib) (hl : lib.Accurate) (hsqrt : lib.sqrt 1 = 1) (sinh0 : lib.sinh 0 = 0) {eps : ℝ} (he : 0 ≤ eps) {dim : ℕ} (hd0 : 2 ≤ dim) (hd : dim ≤ 2 ^ 20)
    {t : ℝ} (ht : t ∈ Binary64) (h1 : 357 ≤ t) (h2 : t ≤ 709) :
    causalityDS eps dim 1 (fun _ => 0) (fun i => if i = 0 then t else 0) = (true, false) ∧
    causalityDSIeee rnd lib eps dim 1 1 (fun _ => fin 0) (fun i => fin (if i = 0 then t else 0)) = .error .overflowError := by
  have z1 : ∀ i ∈ Finset.Ico 1 dim, (if i = 0 then t else 0) = (0 : ℝ) := by
    intro i hi
    rw [Finset.mem_Ico] at hi
    rw [if_neg (by omega)]
  constructor
  · have e1 : ∑ i ∈ Finset.Ico 1 dim, (if i = 0 then t else 0) ^ 2 = 0 := Finset.sum_eq_zero fun i hi => by rw [z1 i hi]; simp
    have e2 : spaceSq dim (fun _ => 0) (fun i => if i = 0 then t else 0) = 0 := by
      unfold spaceSq
      exact Finset.sum_eq_zero fun i hi => by show ((if i = 0 then t else 0) - 0) ^ 2 = 0; rw [z1 i hi]; simp
    have s0 : 0 ≤ Real.sinh t := Real.sinh_nonneg_iff.2 (by linarith)
    have c0 : 1 ≤ Real.cosh t := Real.one_le_cosh t
    have c1 := Real.cosh_sq t
    have e0 : ∑ i ∈ Finset.Ico 1 dim, (0 : ℝ) ^ 2 = 0 := Finset.sum_eq_zero fun i _ => by simp
    unfold causalityDS
    dsimp only
    rw [e0, e1, e2, if_neg (by simp [test])]
    have h4 : (Real.cosh t - 1) ^ 2 - eps ≤ Real.sinh t ^ 2 := by nlinarith
    simp [test, s0, not_lt.2 s0]
    linarith
  · have m1 : (1 : ℝ) ∈ Binary64 := by exact_mod_cast int_mem_binary64 (n := 1) (by norm_num)
    have n0 : normSqIeee rnd dim (fun _ => fin 0) = fin (flNormSq rnd dim fun _ => 0) :=
      (normSqIeee_fin hr (k := 490) (by norm_num) hd (x := fun _ => 0) (fun i _ => by rw [abs_zero]; positivity)).1
    have fl0 : ∀ x : Point, (∀ i ∈ Finset.Ico 1 dim, x i = 0) → flNormSq rnd dim x = 0 := by
      intro x hx
      unfold flNormSq flSum
      have : ∀ l : List ℝ, (∀ a ∈ l, a = 0) → l.foldl (fun s q => rnd (s + q)) 0 = 0 := by
        intro l
        induction l with
        | nil => intro _; rfl
        | cons a l ih =>
          intro h
          rw [List.foldl_cons, h a (by simp), add_zero, hr.zero]
          exact ih fun b hb => h b (by simp [hb])
      refine this _ fun a ha => ?_
      obtain ⟨i, hi, rfl⟩ := List.mem_map.1 ha
      have hi := List.mem_range'_1.1 hi
      rw [hx i (Finset.mem_Ico.2 ⟨by omega, by omega⟩)]
      simp [hr.zero]
    have n1 : normSqIeee rnd dim (fun i => fin (if i = 0 then t else 0)) = fin 0 := by
      rw [(normSqIeee_fin hr (k := 490) (by norm_num) hd (x := fun i => if i = 0 then t else 0) (fun i _ => ?_)).1, fl0 _ z1]
      split_ifs
      · rw [abs_of_nonneg (by linarith)]
        exact h2.trans (le_trans (by norm_num : (709 : ℝ) ≤ 2 ^ 10) (pow_le_pow_right₀ (by norm_num) (by norm_num)))
      · rw [abs_zero]; positivity
    rw [fl0 _ (fun _ _ => rfl)] at n0
    have hsub : subF rnd (fin 1) (fin 0) = fin 1 := by
      simp only [subF, sub_zero, hr.fix m1]
      exact cap_of_lt (by rw [abs_one]; exact one_lt_pow₀ (by norm_num) (by norm_num))
    have hd0' : divF rnd 1 (fin 0) = fin 0 := by
      simp only [divF, div_one, hr.zero]; exact cap_of_lt (by rw [abs_zero]; exact huge_pos)
    have h709 : (709 : ℝ) < huge := lt_of_lt_of_le (by norm_num : (709 : ℝ) < 2 ^ 10) (pow_le_pow_right₀ (by norm_num) (by norm_num))
    have hdt : divF rnd 1 (fin t) = fin t := by
      simp only [divF, div_one, hr.fix ht]; exact cap_of_lt (by rw [abs_of_nonneg (by linarith)]; linarith)
    have ms0 : mathSinh lib.sinh (fin 0) = .ok (fin 0) := by
      rcases mathSinh_fin lib.sinh 0 with ⟨h, _⟩ | ⟨_, h⟩
      · rw [sinh0, abs_zero] at h; exact absurd h (not_le.2 huge_pos)
      · rw [h, sinh0]
    have mc0 : ∃ b, mathCosh lib.cosh (fin 0) = .ok b := by
      rcases mathCosh_fin lib.cosh 0 with ⟨h, _⟩ | ⟨_, h⟩
      · have := hl.cosh 0
        rw [Real.cosh_zero, abs_one] at this
        have h3 := abs_le.1 this
        have hu := ulp_small
        rw [abs_of_nonneg (by linarith)] at h
        exact absurd h (not_le.2 (by linarith))
      · exact ⟨_, h⟩
    obtain ⟨c0, mc0⟩ := mc0
    -- sinh t is large, but finite
    have sb1 : (2 : ℝ) ^ 514 - 1 ≤ Real.sinh t := by
      refine le_trans ?_ (Real.sinh_le_sinh.2 h1)
      rw [Real.sinh_eq]
      have a1 := exp_357
      have a2 : Real.exp (-357) ≤ 1 := Real.exp_le_one_iff.2 (by norm_num)
      rw [show (2 : ℝ) ^ 515 = 2 * 2 ^ 514 by rw [pow_succ, mul_comm]] at a1
      generalize (2 : ℝ) ^ 514 = A at *
      linarith
    have sb2 : Real.sinh t ≤ (2 : ℝ) ^ 1022 := by
      refine le_trans (Real.sinh_le_sinh.2 h2) ?_
      rw [Real.sinh_eq]
      have a1 := exp_709
      have a2 := Real.exp_pos (-709)
      rw [show (2 : ℝ) ^ 1023 = 2 * 2 ^ 1022 by rw [pow_succ, mul_comm]] at a1
      generalize (2 : ℝ) ^ 1022 = A at *
      linarith
    have hu := ulp_small
    have s1 : 1 ≤ Real.sinh t := by
      refine le_trans ?_ sb1
      have : (2 : ℝ) ≤ 2 ^ 514 := le_trans (by norm_num : (2 : ℝ) ≤ 2 ^ 1) (pow_le_pow_right₀ (by norm_num) (by norm_num))
      generalize (2 : ℝ) ^ 514 = A at *
      linarith
    obtain ⟨hs, hs'⟩ := abs_le.1 (show |lib.sinh t - Real.sinh t| ≤ |Real.sinh t| / 100 from (hl.sinh t).trans (by
      clear sb1 sb2
      rw [abs_of_pos (by linarith)]
      have := mul_le_mul_of_nonneg_right (show 2 * ulp ≤ 1 / 1000 by linarith) (by linarith : 0 ≤ Real.sinh t + 1)
      linarith))
    have snn : 0 ≤ Real.sinh t := Real.sinh_nonneg_iff.2 (by linarith)
    have p514 : (2 : ℝ) ^ 514 = 2 * 2 ^ 513 := by rw [pow_succ, mul_comm]
    have p513 : (100 : ℝ) ≤ 2 ^ 513 := le_trans (by norm_num : (100 : ℝ) ≤ 2 ^ 7) (pow_le_pow_right₀ (by norm_num) (by norm_num))
    have p1022 : (2 : ℝ) ^ 1023 = 2 * 2 ^ 1022 := by rw [pow_succ, mul_comm]
    have q1022 : (0 : ℝ) < 2 ^ 1022 := by positivity
    have lo : (2 : ℝ) ^ 513 ≤ lib.sinh t := by
      rw [p514] at sb1
      rw [abs_of_nonneg snn] at hs hs'
      clear p1022 q1022 sb2 p514
      generalize (2 : ℝ) ^ 513 = A at *
      linarith
    have hi : lib.sinh t ≤ (2 : ℝ) ^ 1023 := by
      rw [p1022]
      rw [abs_of_nonneg snn] at hs hs'
      clear lo p514 p513 sb1 p1022
      generalize (2 : ℝ) ^ 1022 = A at *
      linarith
    have pos : 0 < lib.sinh t := lt_of_lt_of_le (by positivity) lo
    have mst : mathSinh lib.sinh (fin t) = .ok (fin (lib.sinh t)) := by
      rcases mathSinh_fin lib.sinh t with ⟨h, _⟩ | ⟨_, h⟩
      · rw [abs_of_pos pos] at h
        exact absurd (h.trans hi) (not_le.2 (pow_lt_huge (by norm_num)))
      · exact h
    have rlo : (2 : ℝ) ^ 513 ≤ rnd (lib.sinh t) := by
      rw [← hr.fix (pow_mem_binary64 513)]; exact hr.mono lo
    have rhi : |rnd (lib.sinh t)| ≤ (2 : ℝ) ^ 1023 := hr.abs_le_pow (by rwa [abs_of_pos pos])
    have mul1 : mulF rnd (fin 1) (fin (lib.sinh t)) = fin (rnd (lib.sinh t)) := by
      simp only [mulF, one_mul]
      exact cap_of_lt (rhi.trans_lt (pow_lt_huge (by norm_num)))
    have mul0 : mulF rnd (fin 1) (fin 0) = fin 0 := by
      simp only [mulF, one_mul, hr.zero]
      exact cap_of_lt (by rw [abs_zero]; exact huge_pos)
    have delta : subF rnd (fin (rnd (lib.sinh t))) (fin 0) = fin (rnd (lib.sinh t)) := by
      simp only [subF, sub_zero, hr.fix (hr.mem _)]
      exact cap_of_lt (rhi.trans_lt (pow_lt_huge (by norm_num)))
    have hfin : pySq lib.sq (fin (rnd (lib.sinh t))) = .error .overflowError := by
      rcases pySq_fin lib.sq (rnd (lib.sinh t)) with ⟨_, h⟩ | ⟨h, _⟩
      · exact h
      · exfalso
        have h3 := (abs_le.1 (hl.sq (rnd (lib.sinh t)))).1
        have h6 := mul_le_mul_of_nonneg_right (show 2 * ulp ≤ 1 / 1000 by linarith) (by positivity : 0 ≤ rnd (lib.sinh t) ^ 2 + 1)
        have h4 : 4 * huge ≤ rnd (lib.sinh t) ^ 2 := by
          calc 4 * huge = ((2 : ℝ) ^ 513) ^ 2 := by unfold huge; rw [← pow_mul, show (4 : ℝ) = 2 ^ 2 by norm_num, ← pow_add]
            _ ≤ _ := pow_le_pow_left₀ (by positivity) rlo 2
        have h5 := le_abs_self (lib.sq (rnd (lib.sinh t)))
        have h7 : 1 ≤ huge := one_le_pow₀ (by norm_num)
        clear rlo rhi lo hi sb1 sb2 p514 p513 p1022 q1022
        linarith
    have hg : NpReal.ge (fin 0) (fin 1) = false := by simp [NpReal.ge, test]
    unfold causalityDSIeee
    simp only [n0, n1, hg, Bool.or_self, Bool.false_eq_true, if_false, bind, Except.bind, pure, Except.pure, hsub, mathSqrt_fin (f := lib.sqrt) zero_le_one, hsqrt, hd0', if_true, hdt, ms0, mc0, mst]
    rcases mathCosh_fin lib.cosh t with ⟨_, e⟩ | ⟨_, e⟩ <;> rw [e]
    simp only [mul1, mul0, delta, hfin]

/-! ## examples -/

/-- the mathematical functions, correctly rounded, meet the hypotheses: the origin and the point at time 400 in the two-dimensional spacetime -/
example : causalityDSIeee rnd64 (exactLib rnd64) (rnd64 causalityEps) 2 1 1 (fun _ => fin 0) (fun i => fin (if i = 0 then 400 else 0)) = .error .overflowError := by
  have m1 : (1 : ℝ) ∈ Binary64 := by exact_mod_cast int_mem_binary64 (n := 1) (by norm_num)
  refine (C116_deSitter_refuted C104_ieee (exactLib rnd64) (exactLib_accurate C104_ieee) ?_ ?_ (C104_ieee.nonneg (by unfold causalityEps; norm_num)) (dim := 2) le_rfl (by norm_num)
    (by exact_mod_cast int_mem_binary64 (n := 400) (by norm_num)) (by norm_num) (by norm_num)).2
  · simp [exactLib, C104_ieee.fix m1]
  · simp [exactLib, C104_ieee.zero]

/-- two points at the times 1000 and 1001 of the default radius 1 -/
example : causalityDSIeee rnd64 (exactLib rnd64) 0 2 1 1 (fun i => fin (lineP 1000 0 i)) (fun i => fin (lineP 1001 0 i)) = .error .overflowError := by
  have h : ∀ t : ℝ, |t| ≤ 1001 → ∀ i < 2, |lineP t 0 i| ≤ 2 ^ 490 := by
    intro t ht i _
    have : |lineP t 0 i| ≤ 2 ^ 10 := by
      unfold lineP
      split_ifs
      · exact ht.trans (by norm_num)
      · norm_num
      · rw [abs_zero]; positivity
    exact this.trans (pow_le_pow_right₀ (by norm_num) (by norm_num))
  refine C116_deSitter_overflow C104_ieee (exactLib rnd64) (exactLib_accurate C104_ieee) 0 (by norm_num) (by norm_num) (alpha := 1) ?_ ?_ (lineP 1000 0) (lineP 1001 0) (h _ (by norm_num))
    (h _ (by norm_num)) ?_ ?_ (.inl ?_)
  · rw [zpow_neg]; exact inv_le_one_of_one_le₀ (one_le_zpow₀ (by norm_num) (by norm_num))
  · rw [abs_one]; exact one_le_pow₀ (by norm_num)
  · simp [flNormSq, flSum, lineP, C104_ieee.zero]
  · simp [flNormSq, flSum, lineP, C104_ieee.zero]
  · norm_num [lineP]

/-- an infinite time in anti-de Sitter spacetime -/
example (y : FPoint) : causalityAdSIeee rnd64 (exactLib rnd64) 0 2 1 1 (fun _ => pinf) y = .error .valueError :=
  C116_antiDeSitter_infinite C104_ieee _ _ _ _ zero_le_one _ _ (.inl (.inl rfl))

end Causets
