import Verif.Props.Shapes

/-! # C88 — reading and plotting a shape does not change it -/

namespace Causets

open CoordinateShape

namespace ShapeObj

/-- **Specification.** A plot in three dimensions one of which is the time. -/
def Call.IsTimePlot : Call → Prop
  | .plot3 d0 d1 d2 => d0 = 0 ∨ d1 = 0 ∨ d2 = 0
  | _ => False

instance : DecidablePred Call.IsTimePlot := fun c => by
  cases c <;> unfold Call.IsTimePlot <;> infer_instance

/-- the object after a list of calls -/
noncomputable def run (o : ShapeObj) (cs : List Call) : ShapeObj := cs.foldl after o

theorem plot3After_eq (S : CoordinateShape) (d0 d1 d2 : ℕ) (h : ¬ (S.name = "bicone" ∧ 0 < S.hollow.getD 0 ∧ (d0 = 0 ∨ d1 = 0 ∨ d2 = 0))) :
    S.plot3After d0 d1 d2 = S := by
  unfold plot3After
  by_cases h1 : S.name = "bicone"
  · by_cases h2 : 0 < S.hollow.getD 0
    · have h3 : ¬ (d0 = 0 ∨ d1 = 0 ∨ d2 = 0) := fun h3 => h ⟨h1, h2, h3⟩
      push Not at h3
      simp [h1, h3.1, h3.2.1, h3.2.2]
    · simp [test, h2]
  · simp [h1]

theorem plot3After_bicone (S : CoordinateShape) (d0 d1 d2 : ℕ) (h1 : S.name = "bicone") (h2 : 0 < S.hollow.getD 0) (h3 : d0 = 0 ∨ d1 = 0 ∨ d2 = 0) :
    S.plot3After d0 d1 d2 = { S with radius := some (S.radius.getD 0 * S.hollow.getD 0) } := by
  unfold plot3After
  have h4 : ¬ (if d0 = 0 then (0 : ℤ) else if d1 = 0 then 1 else if d2 = 0 then 2 else -1) < 0 := by
    split_ifs <;> omega
  simp [h1, h2, h4, test]

/-- **C88, what the calls do.** After any calls the shape is the shape as constructed, except that the radius of a hollow bicone has been multiplied by the relative
radius of the hole once for every plot in three dimensions that shows the time. -/
theorem C88_shape_after (S : CoordinateShape) (hS : S.WellFormed) (vol : Option ℝ) (cs : List Call) :
    (run ⟨S, vol⟩ cs).shape =
      if S.name = "bicone" ∧ 0 < S.hollow.getD 0 then
        { S with radius := some (S.radius.getD 0 * S.hollow.getD 0 ^ (cs.countP (fun c => decide c.IsTimePlot))) }
      else S := by
  induction cs using List.reverseRecOn with
  | nil =>
    split_ifs with h
    · obtain ⟨-, -, hw⟩ := hS
      obtain ⟨dim, name, center, radius, hollow, duration, edge, edges⟩ := S
      rcases hw with ⟨r, h, -, -, -, hS⟩ | ⟨r, h, -, -, -, hS⟩ | ⟨r, h, t, -, -, -, -, hS⟩ | ⟨a, -, hS⟩ | ⟨as, -, -, hS⟩ <;>
        simp_all [run]
    · rfl
  | append_singleton cs c ih =>
    unfold run at ih ⊢
    rw [List.foldl_append, List.countP_append]
    simp only [List.foldl_cons, List.foldl_nil]
    generalize List.foldl after ⟨S, vol⟩ cs = o at ih
    have hsame : ¬ c.IsTimePlot → (o.after c).shape = o.shape := by
      intro hc
      cases c with
      | volume => unfold after readVolume; dsimp only; split <;> rfl
      | plot3 d0 d1 d2 => exact plot3After_eq _ _ _ _ (fun hh => hc hh.2.2)
      | _ => rfl
    by_cases hc : c.IsTimePlot
    · rcases c with _ | _ | _ | _ | _ | _ | ⟨d0, d1, d2⟩ <;> try exact absurd hc id
      show o.shape.plot3After d0 d1 d2 = _
      split_ifs with h
      · rw [if_pos h] at ih
        have hn : o.shape.name = "bicone" := by rw [ih]; exact h.1
        have hh : 0 < o.shape.hollow.getD 0 := by rw [ih]; exact h.2
        rw [plot3After_bicone _ _ _ _ hn hh hc, ih]
        simp [hc, pow_succ, mul_assoc]
      · rw [if_neg h] at ih
        rw [ih]
        exact plot3After_eq _ _ _ _ (fun hh => h ⟨hh.1, hh.2.1⟩)
    · rw [hsame hc, ih]
      simp [hc]

/-- **C88, when it holds.** A shape is unchanged by calls of its methods and properties exactly if it is not a hollow bicone or none of the calls is a plot in three
dimensions one of which is the time. -/
theorem C88_unchanged_partial (S : CoordinateShape) (hS : S.WellFormed) (vol : Option ℝ) (cs : List Call) :
    (run ⟨S, vol⟩ cs).shape = S ↔ ¬ (S.name = "bicone" ∧ 0 < S.hollow.getD 0 ∧ ∃ c ∈ cs, c.IsTimePlot) := by
  rw [C88_shape_after S hS vol cs]
  obtain ⟨-, -, hw⟩ := hS
  by_cases h : S.name = "bicone" ∧ 0 < S.hollow.getD 0
  · rw [if_pos h]
    have hr : ∃ r, S.radius = some r ∧ 0 < r ∧ S.hollow.getD 0 < 1 := by
      rcases hw with ⟨r, h', h1, h2, h3, hS⟩ | ⟨r, h', h1, h2, h3, hS⟩ | ⟨r, h', t, h1, h2, h3, -, hS⟩ | ⟨a, -, hS⟩ | ⟨as, -, -, hS⟩
      · rw [hS] at h; simp at h
      · rw [hS]; exact ⟨r, rfl, h1, h3⟩
      · rw [hS] at h; simp at h
      · rw [hS] at h; simp at h
      · rw [hS] at h; simp at h
    obtain ⟨r, hr, hr0, hh1⟩ := hr
    constructor
    · rintro he ⟨-, -, hc⟩
      have h1 := congrArg CoordinateShape.radius he
      simp only [hr, Option.getD_some, Option.some.injEq] at h1
      have hk : cs.countP (fun c => decide c.IsTimePlot) ≠ 0 := by
        rw [Ne, List.countP_eq_zero]
        push Not
        obtain ⟨c, hc1, hc2⟩ := hc
        exact ⟨c, hc1, by simpa using hc2⟩
      have h2 : S.hollow.getD 0 ^ (cs.countP (fun c => decide c.IsTimePlot)) < 1 := pow_lt_one₀ h.2.le hh1 hk
      nlinarith
    · intro hc
      have hk : cs.countP (fun c => decide c.IsTimePlot) = 0 := by
        rw [List.countP_eq_zero]
        intro c hc1 hc2
        exact hc ⟨h.1, h.2, c, hc1, by simpa using hc2⟩
      rw [hk]
      obtain ⟨dim, name, center, radius, hollow, duration, edge, edges⟩ := S
      simp_all
  · rw [if_neg h]
    exact ⟨fun _ hh => h ⟨hh.1, hh.2.1⟩, fun _ => rfl⟩

/-- **C88, refuted.** After one plot of a hollow bicone `Parameter('radius')` and `Limits` are no longer those of the shape that was constructed, and `Volume` is the
former volume if it has been read before and not otherwise. -/
theorem C88_refuted : ∃ S, CoordinateShape.init 3 "bicone" { radius := some 2, hollow := some (1 / 2) } = .ok S ∧
    S.parameter "radius" = .ok (.num 2) ∧ (run ⟨S, none⟩ [.plot3 0 1 2]).shape.parameter "radius" = .ok (.num 1) ∧
    S.limits 1 = .ok (-2, 2) ∧ (run ⟨S, none⟩ [.plot3 0 1 2]).shape.limits 1 = .ok (-1, 1) ∧
    (run ⟨S, none⟩ [.volume, .plot3 0 1 2]).readVolume.1 = S.volume ∧
    (run ⟨S, none⟩ [.plot3 0 1 2]).readVolume.1 = S.volume / 8 ∧ S.volume ≠ 0 := by
  refine ⟨⟨3, "bicone", [0, 0, 0], some 2, some (1 / 2), none, none, none⟩, ?_, ?_, ?_, ?_, ?_, ?_, ?_, ?_⟩
  · simp only [CoordinateShape.init, rangeFails, test]
    norm_num
    rfl
  · simp [parameter]
  · simp [run, after, plot3After, parameter, test]
  · simp [limits]
  · simp [run, after, plot3After, limits, test]
  · simp [run, after, readVolume]
  · simp [run, after, plot3After, readVolume, test, volume]
    ring
  · have hp := Real.rpow_pos_of_pos Real.pi_pos ((3 : ℝ) / 2 - 0.5)
    have hg := Real.Gamma_pos_of_pos (s := (3 : ℝ) / 2 + 0.5) (by norm_num)
    have hv : CoordinateShape.volume ⟨3, "bicone", [0, 0, 0], some 2, some (1 / 2), none, none, none⟩ =
        7 * (Real.pi ^ ((3 : ℝ) / 2 - 0.5) / Real.Gamma ((3 : ℝ) / 2 + 0.5)) * (2 / 3) := by
      simp only [volume, test, String.reduceEq, if_true, if_false, Option.getD_some]
      norm_num
    rw [hv]
    positivity

/-- **C88, the memory of the volume.** Once `Volume` has been read, all later readings return the same number, whatever is called in between. -/
theorem C88_volume_memory (o : ShapeObj) (cs : List Call) : (run o.readVolume.2 cs).readVolume.1 = o.readVolume.1 := by
  have key : ∀ (cs : List Call) (o : ShapeObj) (V : ℝ), o.vol = some V → (run o cs).vol = some V := by
    intro cs
    induction cs with
    | nil => intro o V h; exact h
    | cons c cs ih =>
      intro o V h
      refine ih (o.after c) V ?_
      cases c with
      | volume => unfold after readVolume; simp [h]
      | _ => exact h
  have h1 : o.readVolume.2.vol = some o.readVolume.1 := by
    unfold readVolume
    split <;> simp_all
  have h2 := key cs _ _ h1
  unfold readVolume at h2 ⊢
  rw [h2]

/-- **C88, the volume read late.** The first reading of `Volume` of a hollow bicone after `k` plots in three dimensions that show the time is the volume of the shape that
was constructed times `hollow ^ (k Dim)`; for all other shapes it is the volume of the shape. -/
theorem C88_volume_late (S : CoordinateShape) (hS : S.WellFormed) (cs : List Call) (hv : Call.volume ∉ cs) :
    (run ⟨S, none⟩ cs).readVolume.1 = if S.name = "bicone" ∧ 0 < S.hollow.getD 0 then
      S.volume * (S.hollow.getD 0 ^ (cs.countP (fun c => decide c.IsTimePlot))) ^ S.dim else S.volume := by
  have key : ∀ (cs : List Call) (o : ShapeObj), o.vol = none → Call.volume ∉ cs → (run o cs).vol = none := by
    intro cs
    induction cs with
    | nil => intro o h _; exact h
    | cons c cs ih =>
      intro o h hc
      simp only [List.mem_cons, not_or] at hc
      refine ih (o.after c) ?_ hc.2
      cases c with
      | volume => exact absurd rfl hc.1
      | _ => exact h
  have h1 := key cs ⟨S, none⟩ rfl hv
  have h2 := C88_shape_after S hS none cs
  unfold readVolume
  rw [h1]
  dsimp only
  rw [h2]
  split_ifs with h
  · have hb := h.1
    simp only [volume, hb, String.reduceEq, if_true, if_false, Option.getD_some]
    split_ifs <;> ring
  · rfl

end ShapeObj

/-- C88: a hollow bicone and calls that change it -/
example : ∃ S : CoordinateShape, S.WellFormed ∧ S.name = "bicone" ∧ 0 < S.hollow.getD 0 ∧
    (ShapeObj.Call.plot3 1 2 0).IsTimePlot ∧ ShapeObj.Call.volume ∉ [ShapeObj.Call.plot3 1 2 0, .limits 0] := by
  obtain ⟨S, -, h1, -, h2, -, h3, -⟩ := (C52_init 3 "bicone" { hollow := some (1 / 2) }).1 (by
    refine ⟨by norm_num, by simp, by simp, fun _ => ⟨by simp, ?_⟩, by simp, by simp, by simp⟩
    intro h hh
    have : h = 1 / 2 := (Option.some.inj hh).symm
    subst this
    norm_num)
  refine ⟨S, h1, by simpa using h2, ?_, by decide, by simp⟩
  rw [(h3 (by simp)).2]; norm_num

end Causets
