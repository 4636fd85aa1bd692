import Verif.Lemmas.UniformLaw
import Verif.Props.Volume
import Verif.Props.Sprinkle

/-! # C101 — sprinkled points are independent and uniformly distributed in the shape (sprinkledcauset.py:67-127) -/

namespace Causets
open CoordinateShape MeasureTheory ProbabilityTheory Set

variable {Ω : Type*} [MeasurableSpace Ω]

/-- **Specification.** What numpy promises of its generator: all draws are independent random variables; `rng.uniform()` is uniformly distributed on `[0, 1)`, `rng.standard_normal()`
has the standard normal distribution. -/
structure RandomDraws (P : Measure Ω) where
  unif : List ℕ → Ω → ℝ
  normal : List ℕ → Ω → ℝ
  unif_meas : ∀ k, Measurable (unif k)
  normal_meas : ∀ k, Measurable (normal k)
  unif_mem : ∀ k ω, 0 ≤ unif k ω ∧ unif k ω < 1
  unif_law : ∀ k, P.map (unif k) = volume.restrict (Ico 0 1)
  normal_law : ∀ k, P.map (normal k) = gaussianReal 0 1
  indep : iIndepFun (Sum.elim unif normal) P

namespace RandomDraws
variable {P : Measure Ω} (R : RandomDraws P)

/-- the values drawn in the outcome `ω` -/
def draws (ω : Ω) : Draws := ⟨fun k => R.unif k ω, fun k => R.normal k ω, fun k => R.unif_mem k ω⟩

theorem meas (k : List ℕ ⊕ List ℕ) : Measurable (Sum.elim R.unif R.normal k) := by
  rcases k with k | k
  · exact R.unif_meas k
  · exact R.normal_meas k

theorem joint_unif (n : ℕ) (l : Fin n → List ℕ) (hl : Function.Injective l) :
    P.map (fun ω j => R.unif (l j) ω) = Measure.pi fun _ : Fin n => volume.restrict (Ico (0 : ℝ) 1) := by
  have h := (R.indep.precomp (g := fun j => Sum.inl (l j)) (fun a b e => hl (Sum.inl_injective e))).map_fun_eq_pi_map (fun j => (R.unif_meas (l j)).aemeasurable)
  refine h.trans ?_
  congr 1
  funext j
  exact R.unif_law (l j)

/-- the joint distribution of two uniform numbers and a normal vector -/
theorem joint (a b : List ℕ) (hab : a ≠ b) (n : ℕ) (l : Fin n → List ℕ) (hl : Function.Injective l) :
    P.map (fun ω => (R.unif a ω, R.unif b ω, fun j => R.normal (l j) ω)) =
      (volume.restrict (Ico (0 : ℝ) 1)).prod ((volume.restrict (Ico (0 : ℝ) 1)).prod (gaussianVec n)) := by
  set Z : Fin (n + 2) → List ℕ ⊕ List ℕ := Fin.cons (Sum.inl a) (Fin.cons (Sum.inl b) fun j => Sum.inr (l j)) with hZ
  have hZi : Function.Injective Z := by
    rw [hZ, Fin.cons_injective_iff, Fin.cons_injective_iff]
    refine ⟨?_, ?_, fun i j e => hl (Sum.inr_injective e)⟩
    · rintro ⟨i, hi⟩
      refine Fin.cases ?_ (fun j => ?_) i hi
      · intro e; exact hab (Sum.inl_injective e).symm
      · intro e; simp at e
    · rintro ⟨i, hi⟩; simp at hi
  have hm : ∀ i, Measurable (Sum.elim R.unif R.normal (Z i)) := fun i => R.meas _
  have h := (R.indep.precomp hZi).map_fun_eq_pi_map (fun i => (hm i).aemeasurable)
  haveI : IsProbabilityMeasure P := R.indep.isProbabilityMeasure
  haveI : ∀ i, IsProbabilityMeasure (P.map (Sum.elim R.unif R.normal (Z i))) := fun i => Measure.isProbabilityMeasure_map (hm i).aemeasurable
  have e1 := measurePreserving_piFinSuccAbove (fun i => P.map (Sum.elim R.unif R.normal (Z i))) 0
  have e2 := measurePreserving_piFinSuccAbove (fun i => P.map (Sum.elim R.unif R.normal (Z (Fin.succ i)))) 0
  have e3 := ((MeasurePreserving.id (P.map (Sum.elim R.unif R.normal (Z 0)))).prod e2).comp e1
  have hmm : Measurable fun ω i => Sum.elim R.unif R.normal (Z i) ω := measurable_pi_lambda _ hm
  have e4 := e3.comp (⟨hmm, h⟩ : MeasurePreserving (fun ω i => Sum.elim R.unif R.normal (Z i) ω) P _)
  refine Eq.trans ?_ (e4.map_eq.trans ?_)
  · congr 1
  · congr 1
    · exact R.unif_law a
    · congr 1
      · exact R.unif_law b
      · congr 1
        funext j
        exact R.normal_law (l j)

theorem joint_ball (b : List ℕ) (n : ℕ) (l : Fin n → List ℕ) (hl : Function.Injective l) :
    P.map (fun ω => (R.unif b ω, fun j => R.normal (l j) ω)) = (volume.restrict (Ico (0 : ℝ) 1)).prod (gaussianVec n) := by
  haveI : IsProbabilityMeasure (volume.restrict (Ico (0 : ℝ) 1)) := ⟨by simp⟩
  have h := R.joint (0 :: b) b (by simp) n l hl
  have hm : Measurable fun ω => (R.unif (0 :: b) ω, R.unif b ω, fun j => R.normal (l j) ω) :=
    (R.unif_meas _).prodMk ((R.unif_meas _).prodMk (measurable_pi_lambda _ fun j => R.normal_meas _))
  have h2 := congrArg (Measure.map Prod.snd) h
  rw [Measure.map_map measurable_snd hm] at h2
  refine Eq.trans rfl (h2.trans ?_)
  exact Measure.snd_prod

/-- random variables that depend on the draws of different rows only are independent -/
theorem indep_of_rows {α : Type*} [MeasurableSpace α] (φ : ℕ → (ℕ × List ℕ → ℝ) → (ℕ × List ℕ → ℝ) → α)
    (hφ : ∀ i, Measurable fun p : (ℕ × List ℕ → ℝ) × (ℕ × List ℕ → ℝ) => φ i p.1 p.2) :
    iIndepFun (fun (i : ℕ) ω => φ i (fun q => R.unif (q.1 :: i :: q.2) ω) (fun q => R.normal (q.1 :: i :: q.2) ω)) P := by
  set key : ℕ × ((ℕ × List ℕ) ⊕ (ℕ × List ℕ)) → List ℕ ⊕ List ℕ := fun p => Sum.map (fun q => q.1 :: p.1 :: q.2) (fun q => q.1 :: p.1 :: q.2) p.2 with hkey
  have hinj : Function.Injective key := by
    rintro ⟨i, a | a⟩ ⟨j, b | b⟩ e
    · simp only [hkey, Sum.map_inl, Sum.inl.injEq, List.cons.injEq] at e
      obtain ⟨e1, rfl, e2⟩ := e
      rw [Prod.ext e1 e2]
    · simp [hkey] at e
    · simp [hkey] at e
    · simp only [hkey, Sum.map_inr, Sum.inr.injEq, List.cons.injEq] at e
      obtain ⟨e1, rfl, e2⟩ := e
      rw [Prod.ext e1 e2]
  have h := R.indep.precomp hinj
  have h2 := indep_rows (X := fun i k => Sum.elim R.unif R.normal (key (i, k))) (fun i k => R.meas _) h
  exact h2.comp (fun i x => φ i (fun q => x (Sum.inl q)) (fun q => x (Sum.inr q)))
    (fun i => (hφ i).comp (g := fun p : (ℕ × List ℕ → ℝ) × (ℕ × List ℕ → ℝ) => φ i p.1 p.2)
      (f := fun x : (ℕ × List ℕ) ⊕ (ℕ × List ℕ) → ℝ => (fun q => x (Sum.inl q), fun q => x (Sum.inr q))) (by fun_prop))

end RandomDraws

/-! ## The rows -/

variable {P : Measure Ω} (R : RandomDraws P)

theorem normalNorm_eq (D : Draws) (n i : ℕ) : normalNorm D n i = enorm2 (fun j : Fin n => D.normal [113, i, j]) := by
  unfold normalNorm enorm2
  rw [Finset.sum_range]

/-- what is proved of the rows of the matrix -/
structure RowLaw (junk : ℕ → Point) (S : CoordinateShape) (row : Draws → ℕ → Point) : Prop where
  coords : ∀ D (n : ℕ), sprinkleCoords D junk S.dim n S = .ok ((List.range n).map (row D))
  meas : ∀ i, Measurable fun ω (j : Fin S.dim) => row (R.draws ω) i j
  law : ∀ i, pdf.IsUniform (fun ω (j : Fin S.dim) => row (R.draws ω) i j) {x | toPoint x ∈ S.region} P
  indep : iIndepFun (fun i ω (j : Fin S.dim) => row (R.draws ω) i j) P
  rest : ∀ D i j, S.dim ≤ j → row D i j = 0
  dep : ∃ F : ℕ → (List ℕ ⊕ List ℕ → ℝ) → Fin S.dim → ℝ, (∀ i, Measurable (F i)) ∧
    ∀ i ω (j : Fin S.dim), row (R.draws ω) i j = F i (fun k => Sum.elim R.unif R.normal k ω) j

theorem rowLaw_box (junk : ℕ → Point) (S : CoordinateShape) (e : ℕ → ℝ) (he : ∀ j < S.dim, 0 < e j) (hname : S.name = "cube" ∨ S.name = "cuboid")
    (hedge : ∀ j, (if S.name = "cuboid" then (S.edges.getD []).getD j 0 else S.edge.getD 0) = e j) (hreg : S.region = cuboidRegion S.dim S.centerPoint e) :
    RowLaw R junk S (fun D => sprinkleCuboid D S.dim S) := by
  haveI hU : IsProbabilityMeasure (volume.restrict (Ico (0 : ℝ) 1)) := ⟨by simp⟩
  set f : Fin S.dim → ℝ → ℝ := fun j u => (S.centerPoint j - e j / 2) + ((S.centerPoint j + e j / 2) - (S.centerPoint j - e j / 2)) * u with hf
  have hma : ∀ j, Measurable (f j) := fun j => by rw [hf]; fun_prop
  have hrow : (fun i ω (j : Fin S.dim) => sprinkleCuboid (R.draws ω) S.dim S i j) = fun i ω j => f j (R.unif [84, i, j] ω) := by
    funext i ω j
    simp only [sprinkleCuboid, if_pos j.2, hedge, Draws.uniform, RandomDraws.draws, centerPoint, hf]
  have hmF : Measurable fun (x : Fin S.dim → ℝ) j => f j (x j) := measurable_pi_lambda _ fun j => (hma j).comp (measurable_pi_apply j)
  have hmu : ∀ i, Measurable fun ω (j : Fin S.dim) => R.unif [84, i, j] ω := fun i => measurable_pi_lambda _ fun j => R.unif_meas _
  refine ⟨fun D n => ?_, fun i => ?_, fun i => ?_, ?_, fun D i j hj => ?_, ?_⟩
  · unfold sprinkleCoords
    rw [if_neg (by omega), if_pos hname, Int.toNat_natCast]
  · rw [congrFun hrow i]
    exact hmF.comp (hmu i)
  · unfold pdf.IsUniform
    rw [congrFun hrow i]
    have hu := R.joint_unif S.dim (fun j => [84, i, j]) (fun a b h => by simpa [Fin.ext_iff] using h)
    refine (Measure.map_map hmF (hmu i)).symm.trans ?_
    rw [hu, Measure.pi_map_pi (fun j => (hma j).aemeasurable)]
    have hint : ∀ j : Fin S.dim, Measure.map (f j) (volume.restrict (Ico (0 : ℝ) 1)) =
        ProbabilityTheory.cond volume (Icc (S.centerPoint j - e j / 2) (S.centerPoint j + e j / 2)) :=
      fun j => uniform_interval (by have := he j j.2; linarith)
    simp only [hint]
    rw [uniform_box _ (fun j => measurableSet_Icc) (fun j => by simp)]
    congr 1
    ext x
    rw [hreg]
    simp only [cuboidRegion, mem_setOf_eq, mem_univ_pi, mem_Icc]
    constructor
    · intro h j hj
      have := h ⟨j, hj⟩
      rw [← toPoint_fin x] at this
      rw [abs_le]
      constructor <;> linarith [this.1, this.2]
    · intro h j
      have := abs_le.1 (h j j.2)
      rw [toPoint_fin] at this
      constructor <;> linarith [this.1, this.2]
  · rw [hrow]
    exact R.indep_of_rows (α := Fin S.dim → ℝ) (fun _ u _ j => f j (u (84, [(j : ℕ)])))
      (fun i => measurable_pi_lambda _ fun j => (hma j).comp (by fun_prop))
  · simp [sprinkleCuboid, Nat.not_lt.2 hj]
  · exact ⟨fun i d j => f j (d (.inl [84, i, j])), fun i => measurable_pi_lambda _ fun j => (hma j).comp (measurable_pi_apply _),
      fun i ω j => congrFun (congrFun (congrFun hrow i) ω) j⟩

/-- the function of the draws in the ball -/
noncomputable def ballMap (n : ℕ) (c : Fin n → ℝ) (r h : ℝ) (p : ℝ × (Fin n → ℝ)) (j : Fin n) : ℝ :=
  c j + (h ^ n + (1 - h ^ n) * p.1) ^ (1 / (n : ℝ)) * r / enorm2 p.2 * p.2 j

theorem measurable_ballMap (n : ℕ) (c : Fin n → ℝ) (r h : ℝ) : Measurable (ballMap n c r h) := by
  have := measurable_enorm2 (n := n)
  unfold ballMap
  fun_prop

theorem rowLaw_ball (junk : ℕ → Point) (S : CoordinateShape) {r h : ℝ} (hd : 1 ≤ S.dim) (hr : 0 < r) (h0 : 0 ≤ h) (h1 : h < 1) (en : S.name = "ball") (er : S.radius = some r)
    (eh : S.hollow = some h) : RowLaw R junk S (fun D => sprinkleBall D junk S.dim S) := by
  have hrow : (fun i ω (j : Fin S.dim) => sprinkleBall (R.draws ω) junk S.dim S i j) =
      fun i ω => ballMap S.dim (fun j => S.centerPoint j) r h (R.unif [116, i] ω, fun k : Fin S.dim => R.normal [113, i, k] ω) := by
    funext i ω j
    simp only [sprinkleBall, en, if_true, er, eh, Option.getD_some, Nat.not_lt_zero, if_false, if_pos j.2, Nat.sub_zero, String.reduceEq, normalNorm_eq,
      Draws.uniform, RandomDraws.draws, centerPoint, ballMap]
  have hm2 := measurable_ballMap S.dim (fun j => S.centerPoint j) r h
  have hm1 : ∀ i, Measurable fun ω => (R.unif [116, i] ω, fun k : Fin S.dim => R.normal [113, i, k] ω) :=
    fun i => (R.unif_meas _).prodMk (measurable_pi_lambda _ fun j => R.normal_meas _)
  refine ⟨fun D n => ?_, fun i => ?_, fun i => ?_, ?_, fun D i j hj => ?_, ?_⟩
  · unfold sprinkleCoords
    rw [if_neg (by omega)]
    simp only [Int.toNat_natCast, en, String.reduceEq, or_self, true_or, if_true, if_false, and_false, Nat.sub_zero]
    rw [if_neg (by rintro ⟨h1, _⟩; omega)]
  · rw [congrFun hrow i]
    exact hm2.comp (hm1 i)
  · unfold pdf.IsUniform
    rw [congrFun hrow i]
    refine (Measure.map_map hm2 (hm1 i)).symm.trans ?_
    rw [R.joint_ball [116, i] S.dim (fun j => [113, i, j]) (fun a b h => by simpa [Fin.ext_iff] using h)]
    refine (uniform_shell S.dim (by omega) hr h0 h1 (fun j => S.centerPoint j)).trans ?_
    congr 1
    ext x
    simp only [region, en, if_true, er, eh, Option.getD_some, ballRegion, mem_setOf_eq, distFrom_zero]
  · rw [hrow]
    exact R.indep_of_rows (α := Fin S.dim → ℝ)
      (fun _ u y => ballMap S.dim (fun j => S.centerPoint j) r h (u (116, []), fun k : Fin S.dim => y (113, [(k : ℕ)])))
      (fun i => hm2.comp (by fun_prop))
  · simp only [sprinkleBall, en, if_true, Nat.not_lt_zero, if_false, Nat.not_lt.2 hj]
  · exact ⟨fun i d => ballMap S.dim (fun j => S.centerPoint j) r h (d (.inl [116, i]), fun k : Fin S.dim => d (.inr [113, i, k])),
      fun i => hm2.comp (by fun_prop), fun i ω j => congrFun (congrFun (congrFun hrow i) ω) j⟩

theorem rowLaw_cylinder (junk : ℕ → Point) (S : CoordinateShape) {r h t : ℝ} (m : ℕ) (hdd : S.dim = m + 1) (hm0 : m ≠ 0) (hr : 0 < r) (h0 : 0 ≤ h) (h1 : h < 1) (ht : 0 < t)
    (en : S.name = "cylinder") (er : S.radius = some r) (eh : S.hollow = some h) (et : S.duration = some t) :
    RowLaw R junk S (fun D => sprinkleBall D junk S.dim S) := by
  set c0 := S.centerPoint 0 with hc0
  set E := MeasurableEquiv.piFinSuccAbove (fun _ : Fin (m + 1) => ℝ) 0 with hE
  have hEs : ∀ p : ℝ × (Fin m → ℝ), E.symm p = Fin.cons p.1 p.2 := fun p => by
    funext j
    refine Fin.cases ?_ (fun j => ?_) j <;> simp [hE, MeasurableEquiv.piFinSuccAbove]
  set f : ℝ → ℝ := fun u => (c0 - t / 2) + ((c0 + t / 2) - (c0 - t / 2)) * u with hf
  have hf1 : Measurable f := by rw [hf]; fun_prop
  set g := ballMap m (fun j => S.centerPoint (j + 1)) r h with hg
  have hg1 : Measurable g := measurable_ballMap _ _ _ _
  have hrow : (fun i ω (j : Fin (m + 1)) => sprinkleBall (R.draws ω) junk (m + 1) S i j) =
      fun i ω => E.symm (Prod.map f g (R.unif [107, i] ω, R.unif [116, i] ω, fun k : Fin m => R.normal [113, i, k] ω)) := by
    funext i ω j
    rw [hEs]
    refine Fin.cases ?_ (fun j => ?_) j
    · simp only [sprinkleBall, en, if_true, String.reduceEq, if_false, et, Option.getD_some, Draws.uniform, RandomDraws.draws, Fin.val_zero, Nat.zero_lt_one, Fin.cons_zero,
        hc0, centerPoint, hf, Prod.map]
    · have : ¬ (j : ℕ) + 1 < 1 := by omega
      simp only [sprinkleBall, en, if_true, String.reduceEq, if_false, er, eh, Option.getD_some, Draws.uniform, RandomDraws.draws, Fin.val_succ, Fin.cons_succ,
        this, if_pos (Nat.succ_lt_succ j.2), Nat.add_sub_cancel, normalNorm_eq, centerPoint, hg, ballMap, Prod.map]
  have hm2 : Measurable fun p : ℝ × ℝ × (Fin m → ℝ) => E.symm (Prod.map f g p) := E.symm.measurable.comp (hf1.prodMap hg1)
  have hm1 : ∀ i, Measurable fun ω => (R.unif [107, i] ω, R.unif [116, i] ω, fun k : Fin m => R.normal [113, i, k] ω) :=
    fun i => (R.unif_meas _).prodMk ((R.unif_meas _).prodMk (measurable_pi_lambda _ fun j => R.normal_meas _))
  have hS : S.region = cylinderRegion (m + 1) S.centerPoint r t h := by
    simp only [region, en, if_true, er, eh, et, Option.getD_some, String.reduceEq, if_false, hdd]
  obtain ⟨d, name, center, radius, hollow, duration, edge, edges⟩ := S
  dsimp only at hdd en er eh et
  subst hdd
  refine ⟨fun D n => ?_, fun i => ?_, fun i => ?_, ?_, fun D i j hj => ?_, ?_⟩
  · unfold sprinkleCoords
    rw [if_neg (by omega)]
    simp only [Int.toNat_natCast, en, String.reduceEq, or_self, true_or, or_true, if_true, if_false, and_false]
    rw [if_neg (by rintro ⟨h1, _⟩; omega)]
  · refine Eq.mpr (congrArg Measurable (congrFun hrow i)) (hm2.comp (hm1 i))
  · unfold pdf.IsUniform
    refine (congrArg (fun F => Measure.map F P) (congrFun hrow i)).trans ?_
    refine (Measure.map_map hm2 (hm1 i)).symm.trans ?_
    rw [R.joint [107, i] [116, i] (by simp) m (fun j => [113, i, j]) (fun a b h => by simpa [Fin.ext_iff] using h)]
    refine (Measure.map_map E.symm.measurable (hf1.prodMap hg1)).symm.trans ?_
    rw [← Measure.map_prod_map _ _ hf1 hg1]
    have hb : Measure.map g ((volume.restrict (Ico (0 : ℝ) 1)).prod (gaussianVec m)) = _ := uniform_shell m hm0 hr h0 h1 _
    have hi : Measure.map f (volume.restrict (Ico (0 : ℝ) 1)) = _ := uniform_interval (by linarith)
    rw [hb, hi]
    generalize hcp : CoordinateShape.centerPoint _ = cp at *
    have hshell : MeasurableSet {x : Fin m → ℝ | h * r ≤ enorm2 (fun i => x i - cp (i + 1)) ∧ enorm2 (fun i => x i - cp (i + 1)) ≤ r} := by
      have hs : Measurable fun (x : Fin m → ℝ) => enorm2 (fun i => x i - cp (i + 1)) := measurable_enorm2.comp (by fun_prop)
      exact (measurableSet_le measurable_const hs).inter (measurableSet_le hs measurable_const)
    rw [uniform_prod _ _ _ _ measurableSet_Icc hshell (by simp)]
    · rw [← Measure.volume_eq_prod, uniform_equiv E (volume_preserving_piFinSuccAbove (fun _ : Fin (m + 1) => ℝ) 0) _ (measurableSet_Icc.prod hshell), hS]
      congr 1
      ext x
      have hx0 : toPoint x 0 = x 0 := toPoint_fin x 0
      simp only [cylinderRegion, mem_setOf_eq, distFrom_one, mem_preimage, mem_prod, mem_Icc, hx0]
      have hE0 : (E x).1 = x 0 := rfl
      have hE1 : ∀ j : Fin m, (E x).2 j = x j.succ := fun j => by
        simp [hE, MeasurableEquiv.piFinSuccAbove, Fin.tail]
      simp only [hE0, hE1, abs_le]
      constructor
      · rintro ⟨⟨a1, a2⟩, a3⟩; exact ⟨⟨by linarith, by linarith⟩, a3⟩
      · rintro ⟨⟨a1, a2⟩, a3⟩; exact ⟨⟨by linarith, by linarith⟩, a3⟩
    · have e : volume {x : Fin m → ℝ | h * r ≤ enorm2 (fun i => x i - cp (i + 1)) ∧ enorm2 (fun i => x i - cp (i + 1)) ≤ r} = _ :=
        volume_translate (fun i : Fin m => cp (i + 1)) {x : Fin m → ℝ | h * r ≤ enorm2 x ∧ enorm2 x ≤ r}
      rw [e, volume_shell m (by positivity) (by nlinarith)]
      exact ENNReal.ofReal_ne_top
  · refine Eq.mpr (congrArg (fun F => iIndepFun F P) hrow) ?_
    exact R.indep_of_rows (α := Fin (m + 1) → ℝ)
      (fun _ u y => E.symm (Prod.map f g (u (107, []), u (116, []), fun k : Fin m => y (113, [(k : ℕ)]))))
      (fun i => hm2.comp (by fun_prop))
  · simp only [sprinkleBall, en, String.reduceEq, if_true, if_false, Nat.not_lt.2 hj, Nat.not_lt.2 (show 1 ≤ j by dsimp only at hj; omega)]
  · exact ⟨fun i d => E.symm (Prod.map f g (d (.inl [107, i]), d (.inl [116, i]), fun k : Fin m => d (.inr [113, i, k]))),
      fun i => hm2.comp (by fun_prop), fun i ω j => congrFun (congrFun (congrFun hrow i) ω) j⟩

/-- the rows of every shape that can be sprinkled -/
theorem rowLaw (junk : ℕ → Point) (S : CoordinateShape) (hS : S.WellFormed) (hb : S.name ≠ "bicone") (hc : S.name = "cylinder" → 2 ≤ S.dim) :
    ∃ row, RowLaw R junk S row := by
  obtain ⟨hd, hl, hcase⟩ := hS
  rcases hcase with ⟨r, h, hr, h0, h1, e⟩ | ⟨r, h, hr, h0, h1, e⟩ | ⟨r, h, t, hr, h0, h1, ht, e⟩ | ⟨a, ha, e⟩ | ⟨as, hlen, has, e⟩
  · exact ⟨_, rowLaw_ball R junk S hd hr h0 h1 (by rw [e]) (by rw [e]) (by rw [e])⟩
  · exact absurd (by rw [e]) hb
  · have en : S.name = "cylinder" := by rw [e]
    have := hc en
    exact ⟨_, rowLaw_cylinder R junk S (S.dim - 1) (by omega) (by omega) hr h0 h1 ht en (by rw [e]) (by rw [e]) (by rw [e])⟩
  · have en : S.name = "cube" := by rw [e]
    have ea : S.edge = some a := by rw [e]
    refine ⟨_, rowLaw_box R junk S (fun _ => a) (fun _ _ => ha) (Or.inl en) (fun j => by simp [en, ea]) ?_⟩
    simp only [region, en, String.reduceEq, if_true, if_false, ea, Option.getD_some]
  · have en : S.name = "cuboid" := by rw [e]
    have ea : S.edges = some as := by rw [e]
    refine ⟨_, rowLaw_box R junk S (fun j => as.getD j 0) (fun j hj => has _ ?_) (Or.inr en) (fun j => by simp [en, ea]) ?_⟩
    · rw [List.getD_eq_getElem?_getD, List.getElem?_eq_getElem (by omega), Option.getD_some]
      exact List.getElem_mem _
    · simp only [region, en, String.reduceEq, if_true, if_false, ea, Option.getD_some]

end Causets
