import Verif.Model.Calculations

/-! # C51 — Newton's method (calculations.py) -/

namespace Causets

/-- **Specification.** One step of Newton's method followed by the restriction of the code: a value below `xmin` is replaced by
`xmin + precission`, a value above `xmax` by `xmax - precission` (`none`: no bound). -/
noncomputable def newtonStep (f fprime : ℝ → ℝ) (y : ℝ) (xmin xmax : Option ℝ) (precission x : ℝ) : ℝ :=
  let z := x - (f x - y) / fprime x
  if ∃ lo, xmin = some lo ∧ z < lo then xmin.getD 0 + precission
  else if ∃ hi, xmax = some hi ∧ hi < z then xmax.getD 0 - precission
  else z

theorem newtonClamp_eq (f fprime : ℝ → ℝ) (y : ℝ) (xmin xmax : Option ℝ) (p x : ℝ) :
    newtonClamp xmin xmax p (x - (f x - y) / fprime x) = newtonStep f fprime y xmin xmax p x := by
  unfold newtonClamp newtonStep
  rcases xmin with _ | lo <;> rcases xmax with _ | hi <;> simp [test]

/-- **Specification.** The method stops successfully after the step number `k`: before it, the derivative was never zero, and `k` is the first
step that moves by less than the precision. -/
def NewtonStops (f fprime : ℝ → ℝ) (y : ℝ) (xmin xmax : Option ℝ) (precission x0 : ℝ) (k : ℕ) : Prop :=
  let g := newtonStep f fprime y xmin xmax precission
  (∀ j ≤ k, fprime (g^[j] x0) ≠ 0) ∧ |g^[k] x0 - g^[k + 1] x0| < precission ∧ ∀ j < k, precission ≤ |g^[j] x0 - g^[j + 1] x0|

/-- **C51, result.** `NewtonsMethod` makes at most `maxIterations` steps: if it stops successfully at one of them, the result is the value after
this step; otherwise it is the default. -/
theorem C51_result (f fprime : ℝ → ℝ) (x0 y : ℝ) (xmin xmax : Option ℝ) (default precission : ℝ) (maxIterations : ℤ) :
    (∀ k : ℕ, (k : ℤ) < maxIterations → NewtonStops f fprime y xmin xmax precission x0 k →
      newtonsMethod f fprime x0 y xmin xmax default precission maxIterations = (newtonStep f fprime y xmin xmax precission)^[k + 1] x0) ∧
    ((∀ k : ℕ, (k : ℤ) < maxIterations → ¬ NewtonStops f fprime y xmin xmax precission x0 k) →
      newtonsMethod f fprime x0 y xmin xmax default precission maxIterations = default) := by
  unfold newtonsMethod
  suffices H : ∀ (m : ℕ) (x : ℝ),
      (∀ k < m, NewtonStops f fprime y xmin xmax precission x k →
        newtonLoop f fprime y xmin xmax default precission m x = (newtonStep f fprime y xmin xmax precission)^[k + 1] x) ∧
      ((∀ k < m, ¬ NewtonStops f fprime y xmin xmax precission x k) →
        newtonLoop f fprime y xmin xmax default precission m x = default) by
    obtain ⟨h1, h2⟩ := H maxIterations.toNat x0
    exact ⟨fun k hk => h1 k (by omega), fun h => h2 fun k hk => h k (by omega)⟩
  intro m
  induction m with
  | zero => intro x; exact ⟨fun k hk => absurd hk (by omega), fun _ => rfl⟩
  | succ m ih =>
    intro x
    unfold newtonLoop
    rw [newtonClamp_eq]
    set g := newtonStep f fprime y xmin xmax precission with hg
    by_cases h0 : fprime x = 0
    · simp only [test, h0, decide_true, if_true]
      refine ⟨fun k _ hs => absurd h0 (hs.1 0 (Nat.zero_le _)), by simp⟩
    · simp only [test, h0, decide_false, Bool.false_eq_true, if_false, decide_eq_true_eq]
      by_cases h1 : |x - g x| < precission
      · rw [if_pos h1]
        have hs0 : NewtonStops f fprime y xmin xmax precission x 0 :=
          ⟨fun j hj => by rw [Nat.le_zero.1 hj]; exact h0, by simpa using h1, fun j hj => absurd hj (by omega)⟩
        refine ⟨fun k _ hs => ?_, fun h => absurd hs0 (h 0 (by omega))⟩
        rcases Nat.eq_zero_or_pos k with rfl | hk
        · rfl
        · exact absurd h1 (not_lt.2 (by simpa using hs.2.2 0 hk))
      · rw [if_neg h1]
        have key : ∀ k, NewtonStops f fprime y xmin xmax precission x (k + 1) ↔ NewtonStops f fprime y xmin xmax precission (g x) k := by
          intro k
          have e : ∀ j, g^[j + 1] x = g^[j] (g x) := fun j => rfl
          constructor
          · rintro ⟨a, b, c⟩
            exact ⟨fun j hj => a (j + 1) (by omega), b, fun j hj => c (j + 1) (by omega)⟩
          · rintro ⟨a, b, c⟩
            refine ⟨fun j hj => ?_, b, fun j hj => ?_⟩
            · rcases j with _ | j
              · exact h0
              · exact a j (by omega)
            · rcases j with _ | j
              · exact not_lt.1 h1
              · exact c j (by omega)
        obtain ⟨i1, i2⟩ := ih (g x)
        refine ⟨fun k hk hs => ?_, fun h => i2 fun k hk hs => h (k + 1) (by omega) ((key k).2 hs)⟩
        rcases k with _ | k
        · exact absurd (by simpa using hs.2.1) h1
        · exact i1 k (by omega) ((key k).1 hs)

/-- **C51, interval.** The result is the default or lies in the interval from `xmin` to `xmax`, if this is at least as long as the precision
(`none`: no bound on this side). -/
theorem C51_interval (f fprime : ℝ → ℝ) (x0 y : ℝ) (xmin xmax : Option ℝ) (default precission : ℝ) (maxIterations : ℤ)
    (hp : 0 ≤ precission) (hlen : ∀ lo hi, xmin = some lo → xmax = some hi → precission ≤ hi - lo) :
    newtonsMethod f fprime x0 y xmin xmax default precission maxIterations = default ∨
    ((∀ lo, xmin = some lo → lo ≤ newtonsMethod f fprime x0 y xmin xmax default precission maxIterations) ∧
     ∀ hi, xmax = some hi → newtonsMethod f fprime x0 y xmin xmax default precission maxIterations ≤ hi) := by
  obtain ⟨h1, h2⟩ := C51_result f fprime x0 y xmin xmax default precission maxIterations
  by_cases h : ∃ k : ℕ, (k : ℤ) < maxIterations ∧ NewtonStops f fprime y xmin xmax precission x0 k
  · obtain ⟨k, hk, hs⟩ := h
    right
    rw [h1 k hk hs, Function.iterate_succ_apply']
    generalize (newtonStep f fprime y xmin xmax precission)^[k] x0 = x
    rw [← newtonClamp_eq]
    generalize x - (f x - y) / fprime x = z
    unfold newtonClamp
    rcases xmin with _ | lo <;> rcases xmax with _ | hi
    · simp
    · simp only [reduceCtorEq, false_implies, implies_true, Option.some.injEq, forall_eq', true_and, test, decide_eq_true_eq]
      split <;> linarith
    · simp only [reduceCtorEq, false_implies, implies_true, Option.some.injEq, forall_eq', and_true, test, decide_eq_true_eq]
      split <;> linarith
    · have := hlen lo hi rfl rfl
      simp only [Option.some.injEq, forall_eq', test, decide_eq_true_eq]
      split
      · constructor <;> linarith
      · split
        · constructor <;> linarith
        · constructor <;> linarith
  · left
    exact h2 fun k hk hs => h ⟨k, hk, hs⟩

/-- **C51, residual.** If the step that ends the method was not cut off at the interval, the function value before this step differs from `y` by
less than the precision times the slope. -/
theorem C51_residual (f fprime : ℝ → ℝ) (x0 y : ℝ) (xmin xmax : Option ℝ) (precission : ℝ) (k : ℕ)
    (hs : NewtonStops f fprime y xmin xmax precission x0 k) :
    let x := (newtonStep f fprime y xmin xmax precission)^[k] x0
    newtonStep f fprime y xmin xmax precission x = x - (f x - y) / fprime x → |f x - y| < precission * |fprime x| := by
  intro x hx
  obtain ⟨h0, h1, -⟩ := hs
  have hne : fprime x ≠ 0 := h0 k le_rfl
  rw [Function.iterate_succ_apply'] at h1
  change |x - newtonStep f fprime y xmin xmax precission x| < precission at h1
  rw [hx, sub_sub_cancel, abs_div, div_lt_iff₀ (abs_pos.2 hne)] at h1
  exact h1

/-- **C51, refuted.** The documentation says that each iteration is restricted to the interval from `xmin + precission` to `xmax - precission`; the
result can be outside of it (here: `f(x) = x`, `y = 0`, start at 0 in the interval from 0 to 1, with the default precision). -/
theorem C51_documented_interval_refuted :
    newtonsMethod (fun x => x) (fun _ => 1) 0 0 (some 0) (some 1) (1 / 2) (1 / 10 ^ 6) 50 < 0 + 1 / 10 ^ 6 := by
  have hs : NewtonStops (fun x => x) (fun _ => 1) 0 (some 0) (some 1) (1 / 10 ^ 6) 0 0 := by
    refine ⟨fun _ _ => one_ne_zero, ?_, fun j hj => absurd hj (by omega)⟩
    norm_num [newtonStep]
  rw [(C51_result _ _ _ _ _ _ _ _ _).1 0 (by norm_num) hs]
  norm_num [newtonStep]

/-- C51: a run that stops after some steps: `f(x) = 2 x`, `y = 1`, from 5 with precision 1: the first step reaches 1/2, the second one does not
move -/
example : NewtonStops (fun x => 2 * x) (fun _ => 2) 1 none none 1 5 1 := by
  have e : ∀ x : ℝ, newtonStep (fun x => 2 * x) (fun _ => 2) 1 none none 1 x = 1 / 2 := by
    intro x
    simp only [newtonStep, reduceCtorEq, false_and, exists_false, if_false]
    ring
  refine ⟨fun _ _ => two_ne_zero, ?_, fun j hj => ?_⟩
  · simp only [Function.iterate_succ_apply', Function.iterate_zero, id_eq, e]; norm_num
  · obtain rfl : j = 0 := by omega
    simp only [Function.iterate_succ_apply', Function.iterate_zero, id_eq, e]; norm_num [abs_of_pos]

end Causets
