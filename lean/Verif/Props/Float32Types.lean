import Verif.Props.Float32TorusExact

/-! # C119 — which arithmetic the answers depend on (NumPy's promotion rules) -/

namespace Causets

/-- the type of an operand is not `float64` -/
def PyNum.Narrow : PyNum → Prop
  | .py _ => True
  | .np a => a.wide = false

theorem periodOperand_narrow {kind : ℕ → NumKind} (hk : ∀ i, kind i ≠ .np64) (period : ℕ → ℝ) (i : ℕ) : (periodOperand kind period i).Narrow := by
  unfold periodOperand
  have := hk i
  cases h : kind i <;> simp_all [PyNum.Narrow]

theorem narrow_ops {A A' : NpArith} (h2 : A.np2 = true) (h2' : A'.np2 = true) (h32 : A.r32 = A'.r32) (hs : A.sq32 = A'.sq32) (eps : ℝ) :
    (∀ c : PyNum, c.Narrow → ∀ a : NpFloat, a.wide = false → A.subFrom c a = A'.subFrom c a ∧ (A.subFrom c a).wide = false ∧ A.addTo c a = A'.addTo c a ∧ (A.addTo c a).wide = false) ∧
    (∀ a : NpFloat, a.wide = false → A.square a = A'.square a ∧ (A.square a).wide = false ∧ A.subEps (.np a) eps = A'.subEps (.np a) eps) := by
  constructor
  · intro c hc a ha
    cases c with
    | py c => simp [NpArith.subFrom, NpArith.addTo, NpArith.wideWith, NpArith.valueIn, NpArith.rnd, ha, h2, h2', h32]
    | np b =>
      have hb : b.wide = false := hc
      simp [NpArith.subFrom, NpArith.addTo, NpArith.wideWith, NpArith.valueIn, NpArith.rnd, ha, hb, h32]
  · intro a ha
    simp [NpArith.square, NpArith.subEps, NpArith.wideWith, NpArith.rnd, NpArith.sq, ha, h2, h2', h32, hs]

theorem narrow_delta {A A' : NpArith} (h2 : A.np2 = true) (h2' : A'.np2 = true) (h32 : A.r32 = A'.r32) (hs : A.sq32 = A'.sq32) {kind : ℕ → NumKind} (hk : ∀ i, kind i ≠ .np64) (period : ℕ → ℝ)
    (i : ℕ) (x y : Point) : A.delta kind period i x y = A'.delta kind period i x y ∧ (A.delta kind period i x y).wide = false := by
  obtain ⟨e1, e2, -⟩ := (narrow_ops h2 h2' h32 hs 0).1 _ (periodOperand_narrow hk period (i - 1)) ⟨|A.r32 (y i - x i)|, false⟩ rfl
  unfold NpArith.delta
  dsimp only
  rw [← h32, ← e1]
  refine ⟨rfl, ?_⟩
  split
  · unfold npMin
    split
    · exact e2
    · rfl
  · rfl

/-- **C119, NumPy 2.** With NumPy 2, if no period is a `float64` scalar (Python floats, or an array of `float32`), the answers only depend on single precision: two computers with the same
`float32` operations give the same answers. -/
theorem C119_numpy2 {A A' : NpArith} (h2 : A.np2 = true) (h2' : A'.np2 = true) (h32 : A.r32 = A'.r32) (hs : A.sq32 = A'.sq32) (eps : ℝ) (kind : ℕ → NumKind) (hk : ∀ i, kind i ≠ .np64)
    (M : FlatSpacetime) (hM : M.dim ≠ 0) (x y : Point) : M.causality32 A eps kind x y = M.causality32 A' eps kind x y := by
  unfold FlatSpacetime.causality32
  split
  · rw [h32]
  split
  · simp only [h2, h2', NpArith.rnd, Bool.not_true, Bool.false_eq_true, if_false, h32]
  · rename_i hd1 _
    have hd := fun i => narrow_delta h2 h2' h32 hs hk (fun i => (M.period.getD []).getD i 0) i x y
    dsimp only
    split
    · unfold NpArith.causalityFlat2DPeriodic
      dsimp only
      rw [← (hd 1).1, ← h32]
      have := ((narrow_ops h2 h2' h32 hs eps).2 ⟨|(A.delta kind (fun i => (M.period.getD []).getD i 0) 1 x y).val|, _⟩ (hd 1).2).2.2
      rw [this]
    · unfold NpArith.causalityFlatPeriodic
      dsimp only
      rw [← h32]
      have step : ∀ l : List ℕ, ∀ s : PyNum, s.Narrow → l.foldl (fun s i => PyNum.np (A.addTo s (A.square (A.delta kind (fun i => (M.period.getD []).getD i 0) i x y)))) s =
          l.foldl (fun s i => PyNum.np (A'.addTo s (A'.square (A'.delta kind (fun i => (M.period.getD []).getD i 0) i x y)))) s ∧
          (l ≠ [] → ∃ a : NpFloat, a.wide = false ∧ l.foldl (fun s i => PyNum.np (A.addTo s (A.square (A.delta kind (fun i => (M.period.getD []).getD i 0) i x y)))) s = .np a) := by
        intro l
        induction l with
        | nil => intro s _; simp
        | cons i l ih =>
          intro s hsn
          simp only [List.foldl_cons]
          obtain ⟨q1, q2, -⟩ := (narrow_ops h2 h2' h32 hs eps).2 _ (hd i).2
          obtain ⟨-, -, q3, q4⟩ := (narrow_ops h2 h2' h32 hs eps).1 s hsn _ q2
          rw [← (hd i).1, ← q1, ← q3]
          obtain ⟨g1, g2⟩ := ih (.np (A.addTo s (A.square (A.delta kind (fun i => (M.period.getD []).getD i 0) i x y)))) q4
          refine ⟨g1, fun _ => ?_⟩
          by_cases hl : l = []
          · subst hl
            exact ⟨_, q4, rfl⟩
          · exact g2 hl
      obtain ⟨g1, g2⟩ := step (List.range' 1 (M.dim - 1)) (.py 0) trivial
      obtain ⟨a, ha, e⟩ := g2 (by
        intro h
        have := congrArg List.length h
        simp at this
        omega)
      rw [← g1, e, ((narrow_ops h2 h2' h32 hs eps).2 a ha).2.2]

/-- **C119, NumPy 1.** With NumPy 1 squares of distances are always computed in double precision: the answers do not depend on the power function of `float32`. -/
theorem C119_numpy1 {A A' : NpArith} (h2 : A.np2 = false) (h2' : A'.np2 = false) (h32 : A.r32 = A'.r32) (h64 : A.r64 = A'.r64) (hs : A.sq64 = A'.sq64) (eps : ℝ) (kind : ℕ → NumKind)
    (M : FlatSpacetime) (x y : Point) : M.causality32 A eps kind x y = M.causality32 A' eps kind x y := by
  obtain ⟨r32, r64, s32, s64, n⟩ := A
  obtain ⟨r32', r64', s32', s64', n'⟩ := A'
  dsimp only at h2 h2' h32 h64 hs
  subst h2 h2' h32 h64 hs
  have hsub : ∀ c a, NpArith.subFrom ⟨r32, r64, s32, s64, false⟩ c a = NpArith.subFrom ⟨r32, r64, s32', s64, false⟩ c a := fun c a => by
    cases c <;> rfl
  have hadd : ∀ c a, NpArith.addTo ⟨r32, r64, s32, s64, false⟩ c a = NpArith.addTo ⟨r32, r64, s32', s64, false⟩ c a := fun c a => by
    cases c <;> rfl
  have hsq : ∀ a, NpArith.square ⟨r32, r64, s32, s64, false⟩ a = NpArith.square ⟨r32, r64, s32', s64, false⟩ a := fun a => by
    simp [NpArith.square, NpArith.sq, NpArith.wideWith]
  have heps : ∀ a, NpArith.subEps ⟨r32, r64, s32, s64, false⟩ a eps = NpArith.subEps ⟨r32, r64, s32', s64, false⟩ a eps := fun a => by
    cases a <;> rfl
  have hdel : ∀ i p, NpArith.delta ⟨r32, r64, s32, s64, false⟩ kind p i x y = NpArith.delta ⟨r32, r64, s32', s64, false⟩ kind p i x y := fun i p => by
    unfold NpArith.delta
    simp only [hsub]
  unfold FlatSpacetime.causality32 NpArith.causalityFlat2DPeriodic NpArith.causalityFlatPeriodic
  simp only [hsq, heps, hdel, hadd]
  rfl

/-- **C119, periods in double precision.** If the period of a two-dimensional spacetime is a `float64` scalar and a pair is nearer around the period, the answer only depends on the differences of the
coordinates and on double precision, with both versions of NumPy. -/
theorem C119_wide_period {A A' : NpArith} (h64 : A.r64 = A'.r64) (eps : ℝ) (kind : ℕ → NumKind) (hk : kind 0 = .np64) (period : ℕ → ℝ) (hp : 0 < period 0) (x y x' y' : Point)
    (ht : A.r32 (y 0 - x 0) = A'.r32 (y' 0 - x' 0)) (hr : |A.r32 (y 1 - x 1)| = |A'.r32 (y' 1 - x' 1)|) (hw : A.r64 (period 0 - |A.r32 (y 1 - x 1)|) < |A.r32 (y 1 - x 1)|) :
    A.causalityFlat2DPeriodic eps kind period x y = A'.causalityFlat2DPeriodic eps kind period x' y' := by
  unfold NpArith.causalityFlat2DPeriodic NpArith.delta
  simp only [Nat.sub_self, gt_iff_lt, hp, if_true, periodOperand, hk, NpArith.subFrom, NpArith.wideWith, NpArith.valueIn, Bool.false_or, NpArith.rnd, npMin, ← hr, ← h64, hw, NpArith.subEps,
    Bool.true_or, ← ht]

/-- the hypotheses of `C119_numpy2` are met: on a computer with another double precision the answers in a torus with Python periods are the same -/
example (x y : Point) : (FlatSpacetime.mk 3 true (some [1, 2])).causality32 (npIEEE true) (1 / 10 ^ 12) (fun _ => .py) x y =
    (FlatSpacetime.mk 3 true (some [1, 2])).causality32 ⟨rnd32, rnd32, fun z => rnd32 (z ^ 2), fun z => z, true⟩ (1 / 10 ^ 12) (fun _ => .py) x y :=
  C119_numpy2 (A := npIEEE true) (A' := ⟨rnd32, rnd32, fun z => rnd32 (z ^ 2), fun z => z, true⟩) rfl rfl rfl rfl (1 / 10 ^ 12) (fun _ => NumKind.py) (fun _ => nofun)
    (FlatSpacetime.mk 3 true (some [1, 2])) (show (3 : ℕ) ≠ 0 by norm_num) x y

end Causets
