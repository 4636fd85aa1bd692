import Verif.Props.Float32Torus

/-! # C119 — periodic flat spacetimes in single precision: causal sets, and the limits -/

namespace Causets

variable {A : NpArith}

/-- **Specification.** The points have `float32` times, any two of them differ by at most the periods, and no two of them are close to the light cone of each other (on the torus): either
the first is in the past of the second by a margin, or it is outside of the light cone by a margin. -/
structure FlatSpacetime.Clear32 (M : FlatSpacetime) (eps : ℝ) (S : Set Point) : Prop where
  float : ∀ x ∈ S, x 0 ∈ Binary32
  domain : ∀ x ∈ S, ∀ y ∈ S, InDomain M.dim M.periods x y
  clear : ∀ x ∈ S, ∀ y ∈ S, x 0 ≤ y 0 →
    if M.dim = 2 then
      (Real.sqrt (M.distSq x y) ≤ y 0 - x 0 ∧ Real.sqrt (M.distSq x y) + M.margin eps x y ≤ y 0 - x 0 + eps) ∨ y 0 - x 0 + eps + M.margin eps x y < Real.sqrt (M.distSq x y)
    else
      (M.distSq x y ≤ (y 0 - x 0) ^ 2 ∧ M.distSq x y + M.margin eps x y ≤ (y 0 - x 0) ^ 2 + eps) ∨ (y 0 - x 0) ^ 2 + eps + M.margin eps x y < M.distSq x y

theorem margin_nonneg (M : FlatSpacetime) {eps : ℝ} (heps : 0 ≤ eps) (x y : Point) : 0 ≤ M.margin eps x y := by
  have h1 : 0 ≤ M.sizeSq x y := Finset.sum_nonneg fun i _ => sq_nonneg _
  have h2 : 0 ≤ M.sizeAt x y 1 := by
    unfold FlatSpacetime.sizeAt
    split
    · next h => exact h.1.le
    · exact abs_nonneg _
  unfold FlatSpacetime.margin
  split <;> positivity

/-- **C119, exact answers.** If no two points are close to the light cone of each other, the answers are the exact causal order of the torus (of Minkowski spacetime without periods). -/
theorem C119_exact (hA : A.Accurate) (eps : ℝ) (heps : 0 ≤ eps) (kind : ℕ → NumKind) (M : FlatSpacetime) (hd1 : 1 ≤ M.dim) (hd2 : M.dim ≤ 100000) (S : Set Point)
    (hS : M.Clear32 eps S) :
    (∀ x ∈ S, ∀ y ∈ S, ((M.causality32 A eps kind x y).1 = true ↔ TorusLe M.dim M.periods x y) ∧
      ((M.causality32 A eps kind x y).2 = true ↔ TorusLe M.dim M.periods y x ∧ ¬ TorusLe M.dim M.periods x y)) ∧
    IsCausalOrder (M.causality32 A eps kind) S := by
  have key : ∀ x ∈ S, ∀ y ∈ S, ((M.causality32 A eps kind x y).1 = true ↔ TorusLe M.dim M.periods x y) := by
    intro x hx y hy
    have hacc := C119_accuracy hA eps heps kind M hd1 hd2 x y (hS.float x hx) (hS.float y hy) (hS.domain x hx y hy)
    have hcl := hS.clear x hx y hy
    have hm := margin_nonneg M heps x y
    rw [torusLe_iff (hS.domain x hx y hy)]
    have hds : ∑ i ∈ Finset.Ico 1 M.dim, (periodicDelta (M.periods (i - 1)) (y i - x i)) ^ 2 = M.distSq x y := rfl
    rw [hds]
    by_cases h2 : M.dim = 2
    · rw [if_pos h2] at hacc hcl
      obtain ⟨h1, h3⟩ := hacc
      constructor
      · intro h
        obtain ⟨ht, hle⟩ := h3 h
        refine ⟨by linarith, ?_⟩
        rcases hcl ht with hc | hc
        · exact (Real.sqrt_le_left (by linarith)).1 hc.1
        · exact absurd hle (not_le.2 hc)
      · rintro ⟨ht, hle⟩
        refine h1 (by linarith) ?_
        rcases hcl (by linarith) with hc | hc
        · exact hc.2
        · have := (Real.sqrt_le_left ht).2 hle
          exfalso; linarith
    · rw [if_neg h2] at hacc hcl
      obtain ⟨h1, h3⟩ := hacc
      constructor
      · intro h
        obtain ⟨ht, hle⟩ := h3 h
        refine ⟨by linarith, ?_⟩
        rcases hcl ht with hc | hc
        · exact hc.1
        · exact absurd hle (not_le.2 hc)
      · rintro ⟨ht, hle⟩
        refine h1 (by linarith) ?_
        rcases hcl (by linarith) with hc | hc
        · exact hc.2
        · exfalso; linarith
  have after : ∀ x ∈ S, ∀ y ∈ S, ((M.causality32 A eps kind x y).2 = true ↔
      (M.causality32 A eps kind y x).1 = true ∧ (M.causality32 A eps kind x y).1 = false) := fun x hx y hy =>
    (C119_directions hA.r32 eps kind M x y (hS.float x hx) (hS.float y hy)).2.1
  refine ⟨fun x hx y hy => ⟨key x hx y hy, ?_⟩, ⟨fun x hx y hy z hz h1 h2 => ?_, after⟩⟩
  · rw [after x hx y hy, key y hy x hx, ← key x hx y hy, Bool.not_eq_true]
  · rw [key _ hx _ hy] at h1
    rw [key _ hy _ hz] at h2
    rw [key _ hx _ hz]
    exact torusLe_trans h1 h2

/-- **C119, causal sets.** If no two points are close to the light cone of each other, `create` succeeds and gives exactly the causal set of the points on the torus: for events at points
that do not precede each other mutually, `<` is the exact causal order; the state is consistent and linked. -/
theorem C119_create (hA : A.Accurate) (eps : ℝ) (heps : 0 ≤ eps) (kind : ℕ → NumKind) (M : FlatSpacetime) (hd1 : 1 ≤ M.dim) (hd2 : M.dim ≤ 100000) (S : Set Point)
    (hS : M.Clear32 eps S) (it : Iter) (coords : List Point) (hcoords : ∀ x ∈ coords, x ∈ S)
    (fmt : Option (ℕ → String)) (w : World Point) (v : w.heap.Valid) (lx : w.heap.LinksExact) :
    let r := create (M.causality32 A eps kind) it ∅ coords fmt true w
    r.2.2.1 = .ok () ∧ r.2.2.2.heap.Valid ∧ r.2.2.2.heap.LinksExact ∧ Closed r.2.2.2.heap.Lt r.1 ∧ (∀ e ∈ r.1, r.2.2.2.heap.hasBeenLinked e = true) ∧
      (∀ e ∈ r.1, ∃ x ∈ S, r.2.2.2.crd e = some x) ∧
      ((∀ a ∈ r.1, ∀ b ∈ r.1, ∀ x y, r.2.2.2.crd a = some x → r.2.2.2.crd b = some y → a ≠ b →
          ¬ (TorusLe M.dim M.periods x y ∧ TorusLe M.dim M.periods y x)) →
        ∀ a ∈ r.1, ∀ b ∈ r.1, ∀ x y, r.2.2.2.crd a = some x → r.2.2.2.crd b = some y →
          (r.2.2.2.heap.Lt a b ↔ a ≠ b ∧ TorusLe M.dim M.periods x y)) := by
  intro r
  obtain ⟨hk, hc⟩ := C119_exact hA eps heps kind M hd1 hd2 S hS
  obtain ⟨h1, h2, h3, -, h5, h6, h7, h8, -⟩ := C42_create (M.causality32 A eps kind) S hc it ∅ coords fmt w v lx (by simp) (by intro x hx; simp at hx) (by simp) hcoords
  refine ⟨h1, h2, h3, h5, h6, h7, fun hne a ha b hb x y hx hy => ?_⟩
  have hS : ∀ e ∈ r.1, ∀ x, r.2.2.2.crd e = some x → x ∈ S := by
    intro e hE x hx
    obtain ⟨x', hx', hx2⟩ := h7 e hE
    have : x = x' := by
      have : some x = some x' := hx.symm.trans hx2
      simpa using this
    rw [this]; exact hx'
  have := h8 (fun a ha b hb x y hx hy hab => by
    rw [(hk x (hS a ha x hx) y (hS b hb y hy)).1, (hk y (hS b hb y hy) x (hS a ha x hx)).1]
    exact hne a ha b hb x y hx hy hab) a ha b hb x y hx hy
  rw [(hk x (hS a ha x hx) y (hS b hb y hy)).1] at this
  exact this

/-- the rounding of a number close to a `float32` number, in both types -/
theorem NpArith.Accurate.near (hA : A.Accurate) (wd : Bool) {z f : ℝ} (hf : f ∈ Binary32) : |A.rnd wd z - z| ≤ |f - z| := by
  unfold NpArith.rnd
  cases wd
  · exact hA.r32.nearest z f hf
  · exact hA.r64.nearest z f (C115_ieee.2.2.1 hf)

/-- numbers that are exact in both types -/
theorem NpArith.Accurate.fix (hA : A.Accurate) (wd : Bool) {f : ℝ} (hf : f ∈ Binary32) : A.rnd wd f = f := by
  have := hA.near wd (z := f) hf
  rw [sub_self, abs_zero] at this
  linarith [abs_eq_zero.1 (le_antisymm this (abs_nonneg _))]

/-- the point `(t, a)` -/
noncomputable def pt2 (t a : ℝ) : Point := fun i => if i = 0 then t else if i = 1 then a else 0

/-- **C119, refuted.** "In two dimensions single precision loses no causal relation" holds without periods (C115) but not with them: with the period 1, both promotion rules and all types
of the period, and any tolerance up to `10^-9`, there are points with `float32` coordinates, in one fundamental domain, of which the first is in the past of the second (around the cylinder),
but the answer is "unrelated" in both directions. -/
theorem C119_refuted (hA : A.Accurate) (eps : ℝ) (heps : 0 ≤ eps) (he : eps ≤ 1 / 10 ^ 9) (kind : ℕ → NumKind) :
    let M : FlatSpacetime := ⟨2, true, some [1]⟩
    ∃ x y : Point, (∀ i, x i ∈ Binary32 ∧ y i ∈ Binary32) ∧ InDomain M.dim M.periods x y ∧ TorusLe M.dim M.periods x y ∧
      M.causality32 A eps kind x y = (false, false) ∧ M.causality32 A eps kind y x = (false, false) := by
  intro M
  set t : ℝ := 16777215 / 2 ^ 26 with ht
  set a : ℝ := -1 / 2 ^ 26 with ha
  set b : ℝ := 3 / 2 ^ 2 with hb
  have h0 : (0 : ℝ) ∈ Binary32 := by simpa using div_mem_binary32 0 (by norm_num) (m := 0) (by norm_num)
  have hta : t ∈ Binary32 := by simpa [ht] using div_mem_binary32 26 (by norm_num) (m := 16777215) (by norm_num)
  have haa : a ∈ Binary32 := by simpa [ha] using div_mem_binary32 26 (by norm_num) (m := -1) (by norm_num)
  have hba : b ∈ Binary32 := by simpa [hb] using div_mem_binary32 2 (by norm_num) (m := 3) (by norm_num)
  have h1a : (1 : ℝ) ∈ Binary32 := by simpa using div_mem_binary32 0 (by norm_num) (m := 1) (by norm_num)
  have hqa : (1 / 4 : ℝ) ∈ Binary32 := by
    have := div_mem_binary32 2 (by norm_num) (m := 1) (by norm_num)
    norm_num at this ⊢; exact this
  have hper : M.periods 0 = 1 := by simp [M, FlatSpacetime.periods]
  have hdom : InDomain M.dim M.periods (pt2 0 a) (pt2 t b) := by
    intro i h1 h2 _
    have : i = 1 := by simp only [M] at h2; omega
    subst this
    rw [show 1 - 1 = 0 from rfl, hper]
    simp only [pt2, one_ne_zero, if_false, if_true, ha, hb]
    rw [abs_of_pos (by norm_num)]; norm_num
  have hrd : A.r32 (b - a) = b := by
    have hs := hA.r32.nearest (b - a) b hba
    have e := floatNum_eq_of_near (p := 24) (emin := -149) (by norm_num) hA.r32 (n := 12582912) (e := -24) (z := b - a) (by norm_num) (by norm_num) (by norm_num)
      (by rw [ha, hb, zpow_neg, zpow_ofNat, abs_of_pos (by norm_num)]; norm_num)
    rw [e, hb, zpow_neg, zpow_ofNat]; norm_num
  have hdelta : (A.delta kind (fun i => (M.period.getD []).getD i 0) 1 (pt2 0 a) (pt2 t b)).val = 1 / 4 := by
    unfold NpArith.delta
    simp only [pt2, one_ne_zero, if_false, if_true]
    rw [hrd, if_pos (by simp [M])]
    have hmin : ∀ p q : NpFloat, (npMin p q).val = min p.val q.val := by
      intro p q
      unfold npMin
      split
      · next h => rw [min_eq_right h.le]
      · next h => rw [min_eq_left (not_lt.1 h)]
    have hv : ∀ w, A.valueIn w (periodOperand kind (fun i => (M.period.getD []).getD i 0) (1 - 1)) = 1 := by
      intro w
      unfold periodOperand
      split
      · simp only [NpArith.valueIn, M]
        simpa using hA.fix w h1a
      · simp [NpArith.valueIn, M]
      · simp [NpArith.valueIn, M]
    rw [hmin]
    unfold NpArith.subFrom
    dsimp only
    rw [hv, show (1 : ℝ) - |b| = 1 / 4 by rw [hb, abs_of_pos (by norm_num)]; norm_num, hA.fix _ hqa, hb, abs_of_pos (by norm_num)]
    norm_num
  have hrt : A.r32 (t - 0) = t := by rw [sub_zero]; exact hA.fix false hta
  have hres : M.causality32 A eps kind (pt2 0 a) (pt2 t b) = (false, false) := by
    have e1 : M.causality32 A eps kind = A.causalityFlat2DPeriodic eps kind (fun i => (M.period.getD []).getD i 0) := rfl
    rw [e1]
    unfold NpArith.causalityFlat2DPeriodic
    dsimp only
    obtain ⟨wd, e, hee, hform⟩ := hA.subEps_form (.np ⟨|(A.delta kind (fun i => (M.period.getD []).getD i 0) 1 (pt2 0 a) (pt2 t b)).val|,
      (A.delta kind (fun i => (M.period.getD []).getD i 0) 1 (pt2 0 a) (pt2 t b)).wide⟩) (1 / 4) eps heps (fun c h => by simp at h)
      (fun a h => by simp only [PyNum.np.injEq] at h; rw [← h]; dsimp only; rw [hdelta, abs_of_pos (by norm_num)])
    rw [hform]
    have hlt : ¬ (|A.r32 (pt2 t b 0 - pt2 0 a 0)| ≥ A.rnd wd (1 / 4 - e)) := by
      simp only [pt2, if_true]
      rw [hrt, abs_of_pos (by rw [ht]; norm_num), not_le]
      have h1 := abs_le.1 (hA.near wd (z := 1 / 4 - e) hqa)
      have h2 : |(1 / 4 : ℝ) - (1 / 4 - e)| = |e| := by congr 1; ring
      rw [h2] at h1
      have h3 := abs_le.1 hee
      have h4 : u32 * (eps + w32) ≤ 1 / 10 ^ 9 := by
        have : u32 * (eps + w32) ≤ 1 / 1000000 * (1 / 10 ^ 9 + 1 / 2 ^ 126) :=
          mul_le_mul u32_small (by unfold w32; linarith) (add_nonneg heps w32_pos.le) (by norm_num)
        refine this.trans (by norm_num)
      have h5 : |e| ≤ 2 / 10 ^ 9 := by rw [abs_le]; constructor <;> linarith
      have h6 := abs_le.1 h5
      rw [ht]
      have : (16777215 : ℝ) / 2 ^ 26 < 1 / 4 - 4 / 10 ^ 9 := by norm_num
      linarith
    rw [show test (|A.r32 (pt2 t b 0 - pt2 0 a 0)| ≥ A.rnd wd (1 / 4 - e)) = false from decide_eq_false hlt]
    simp
  have hx : ∀ i, pt2 0 a i ∈ Binary32 := fun i => by unfold pt2; split_ifs <;> assumption
  have hy : ∀ i, pt2 t b i ∈ Binary32 := fun i => by unfold pt2; split_ifs <;> assumption
  refine ⟨pt2 0 a, pt2 t b, fun i => ⟨hx i, hy i⟩, hdom, ?_, hres, ?_⟩
  · rw [torusLe_iff hdom]
    have hd : ∑ i ∈ Finset.Ico 1 M.dim, (periodicDelta (M.periods (i - 1)) (pt2 t b i - pt2 0 a i)) ^ 2 = (1 - (b - a)) ^ 2 := by
      simp only [M, Nat.Ico_succ_singleton, Finset.sum_singleton]
      rw [show 1 - 1 = 0 from rfl, show FlatSpacetime.periods ⟨2, true, some [1]⟩ 0 = 1 from hper]
      simp only [pt2, one_ne_zero, if_false, if_true, periodicDelta]
      rw [if_pos one_pos, abs_of_pos (by rw [ha, hb]; norm_num), min_eq_right (by rw [ha, hb]; norm_num)]
    rw [hd]
    simp only [pt2, if_true, ht, ha, hb]
    constructor <;> norm_num
  · have := (C119_directions hA.r32 eps kind M (pt2 0 a) (pt2 t b) (hx 0) (hy 0)).2.2.2.2 (by simp only [pt2, if_true, ht]; norm_num)
    rw [this, hres]

/-- NumPy with IEEE rounding and a correctly rounded power -/
noncomputable def npIEEE (np2 : Bool) : NpArith := ⟨rnd32, rnd64, fun z => rnd32 (z ^ 2), fun z => rnd64 (z ^ 2), np2⟩

/-- **C119, IEEE 754.** Rounding to nearest with ties to even and a correctly rounded power satisfy the assumption of the theorems, with both promotion rules. -/
theorem C119_ieee (np2 : Bool) : (npIEEE np2).Accurate := by
  refine ⟨C115_ieee.1, C115_ieee.2.1, fun w z => ?_⟩
  have h : ∀ {rnd : ℝ → ℝ}, RoundErr rnd u32 w32 → 0 ≤ rnd (z ^ 2) ∧ |rnd (z ^ 2) - z ^ 2| ≤ 2 / 2 ^ 24 * (z ^ 2 + 1 / 2 ^ 126) := by
    intro rnd hr
    refine ⟨hr.nonneg _ (sq_nonneg z), (hr.err _).trans ?_⟩
    rw [abs_of_nonneg (sq_nonneg z)]
    have : 0 ≤ z ^ 2 + 1 / 2 ^ 126 := by positivity
    unfold u32 w32
    linarith
  cases w
  · exact h (roundErr32 (p := 24) (emin := -149) le_rfl le_rfl C115_ieee.1)
  · exact h (roundErr32 (p := 53) (emin := -1074) (by norm_num) (by norm_num) C115_ieee.2.1)

/-- the assumptions of `C119_exact` and `C119_create` are met, with IEEE rounding and the tolerance of the code, on the torus with periods 4 and 4, by two points that are related only around
the torus and one that is unrelated to both -/
example : ∃ S : Set Point, point3 0 0 0 ∈ S ∧ point3 2 3 0 ∈ S ∧ point3 1 2 2 ∈ S ∧ FlatSpacetime.Clear32 ⟨3, true, some [4, 4]⟩ causalityEps S ∧ ¬ MinkLe 3 (point3 0 0 0) (point3 2 3 0) ∧
    TorusLe 3 (FlatSpacetime.periods ⟨3, true, some [4, 4]⟩) (point3 0 0 0) (point3 2 3 0) := by
  have hS : ∀ x ∈ ({point3 0 0 0, point3 2 3 0, point3 1 2 2} : Set Point), x = point3 0 0 0 ∨ x = point3 2 3 0 ∨ x = point3 1 2 2 := fun x hx => by simpa using hx
  have hmem : ∀ n : ℤ, |n| ≤ 2 ^ 24 → (n : ℝ) ∈ Binary32 := fun n hn => by simpa using div_mem_binary32 0 (by norm_num) hn
  have hp0 : FlatSpacetime.periods ⟨3, true, some [4, 4]⟩ 0 = 4 := by simp [FlatSpacetime.periods]
  have hp1 : FlatSpacetime.periods ⟨3, true, some [4, 4]⟩ 1 = 4 := by simp [FlatSpacetime.periods]
  have hico : Finset.Ico 1 3 = {1, 2} := by decide
  have hdom : ∀ x ∈ ({point3 0 0 0, point3 2 3 0, point3 1 2 2} : Set Point), ∀ y ∈ ({point3 0 0 0, point3 2 3 0, point3 1 2 2} : Set Point),
      InDomain 3 (FlatSpacetime.periods ⟨3, true, some [4, 4]⟩) x y := by
    intro x hx y hy i h1 h3 _
    have : i = 1 ∨ i = 2 := by omega
    rcases this with rfl | rfl
    · rw [show 1 - 1 = 0 from rfl, hp0, abs_le]
      rcases hS x hx with rfl | rfl | rfl <;> rcases hS y hy with rfl | rfl | rfl <;> simp only [point3, one_ne_zero, if_true, if_false] <;> constructor <;> norm_num
    · rw [show 2 - 1 = 1 from rfl, hp1, abs_le]
      rcases hS x hx with rfl | rfl | rfl <;> rcases hS y hy with rfl | rfl | rfl <;>
        simp only [point3, OfNat.ofNat_ne_zero, OfNat.ofNat_ne_one, if_true, if_false] <;> constructor <;> norm_num
  refine ⟨{point3 0 0 0, point3 2 3 0, point3 1 2 2}, by simp, by simp, by simp, ⟨?_, hdom, ?_⟩, ?_, ?_⟩
  · intro x hx
    rcases hS x hx with rfl | rfl | rfl
    · simpa [point3] using hmem 0 (by norm_num)
    · simpa [point3] using hmem 2 (by norm_num)
    · simpa [point3] using hmem 1 (by norm_num)
  · intro x hx y hy hxy
    rw [if_neg (by norm_num)]
    unfold FlatSpacetime.margin FlatSpacetime.distSq FlatSpacetime.sizeSq FlatSpacetime.sizeAt
    dsimp only
    rw [if_neg (by norm_num), hico, Finset.sum_pair (by norm_num), Finset.sum_pair (by norm_num)]
    rw [show 1 - 1 = 0 from rfl, show 2 - 1 = 1 from rfl, hp0, hp1]
    unfold periodicDelta causalityEps
    rw [if_pos (by norm_num), if_pos (by norm_num)]
    rcases hS x hx with rfl | rfl | rfl <;> rcases hS y hy with rfl | rfl | rfl <;>
      simp only [point3, if_true, if_false, one_ne_zero, OfNat.ofNat_ne_zero, OfNat.ofNat_ne_one] at hxy ⊢ <;>
      first
        | (exfalso; revert hxy; norm_num; done)
        | (left; norm_num; done)
        | (left; norm_num [abs_of_pos, min_def]; done)
        | (right; norm_num [abs_of_pos, min_def]; done)
  · rw [minkLe_iff]
    unfold spaceSq
    rw [hico, Finset.sum_pair (by norm_num)]
    simp only [point3, if_true, if_false, one_ne_zero, OfNat.ofNat_ne_zero, OfNat.ofNat_ne_one]
    norm_num
  · rw [torusLe_iff (hdom _ (by simp) _ (by simp)), hico, Finset.sum_pair (by norm_num)]
    rw [show 1 - 1 = 0 from rfl, show 2 - 1 = 1 from rfl, hp0, hp1]
    unfold periodicDelta
    rw [if_pos (by norm_num), if_pos (by norm_num)]
    simp only [point3, if_true, if_false, one_ne_zero, OfNat.ofNat_ne_zero, OfNat.ofNat_ne_one]
    norm_num

end Causets
