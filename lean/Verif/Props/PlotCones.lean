import Verif.Props.PlotOutcome
import Verif.Model.Diagram

/-! # C90 — which causal cones are drawn, and how opaque (causetplotting.py:391-425, 452-466; spacetimes.py:187-196) -/

namespace Causets

variable {γ : Type}

/-! ## Specification -/

/-- **Specification.** The maximal opacity of the cones: 0.1 by default, otherwise that of the user. -/
def ConeMax (sw : Switch) (m : ℝ) : Prop :=
  (sw = .on ∧ m = 1 / 10) ∨ ∃ u, sw = .dict u ∧ (("alpha", PyVal.other (.num m)) ∈ u ∨ ((∀ w, ("alpha", w) ∉ u) ∧ m = 1 / 10))

/-- **Specification.** The opacity of the cone of an event at the time distance `r` from the time slice, in a plot of dimension `n`. -/
noncomputable def coneOpacity (name : String) (n : ℕ) (depth m r : ℝ) : ℝ :=
  let rate := if depth = 0 then 10000000000 else 1 / |depth|
  if name = "linear" then m * (1 - r * rate) else if name = "exponential" then m * Real.exp (-(r * rate)) else m / (r + 1) ^ (n - 1)

/-! ## Theorems -/

/-- **C90, range.** For a positive maximal opacity: linear fading reaches 0 at the time depth, the other functions are always positive; no cone is more opaque than the maximum,
and the opacity falls with the time distance. -/
theorem C90_range (name : String) (n : ℕ) (depth m : ℝ) (hm : 0 < m) (hd : depth ≠ 0) :
    (∀ r, 0 < r → (0 < coneOpacity name n depth m r ↔ (name = "linear" → r < |depth|)) ∧ coneOpacity name n depth m r ≤ m) ∧
    (∀ r r', 0 < r → r ≤ r' → coneOpacity name n depth m r' ≤ coneOpacity name n depth m r) := by
  have hp : 0 < |depth| := abs_pos.2 hd
  constructor
  · intro r hr
    unfold coneOpacity
    rw [if_neg hd]
    by_cases h1 : name = "linear"
    · simp only [h1, if_true, forall_const]
      refine ⟨?_, ?_⟩
      · rw [mul_pos_iff_of_pos_left hm, sub_pos, mul_one_div, div_lt_one hp]
      · have : 0 ≤ r * (1 / |depth|) := by positivity
        nlinarith
    · simp only [h1, if_false, false_imp_iff, iff_true]
      by_cases h2 : name = "exponential"
      · simp only [h2, if_true]
        refine ⟨by positivity, ?_⟩
        have h0 : 0 ≤ r * (1 / |depth|) := by positivity
        have : Real.exp (-(r * (1 / |depth|))) ≤ 1 := Real.exp_le_one_iff.2 (by linarith)
        nlinarith
      · simp only [h2, if_false]
        refine ⟨by positivity, ?_⟩
        exact div_le_self hm.le (one_le_pow₀ (by linarith))
  · intro r r' hr hrr
    unfold coneOpacity
    rw [if_neg hd]
    by_cases h1 : name = "linear"
    · simp only [h1, if_true]
      have : r * (1 / |depth|) ≤ r' * (1 / |depth|) := mul_le_mul_of_nonneg_right hrr (by positivity)
      nlinarith
    · simp only [h1, if_false]
      by_cases h2 : name = "exponential"
      · simp only [h2, if_true]
        have : r * (1 / |depth|) ≤ r' * (1 / |depth|) := mul_le_mul_of_nonneg_right hrr (by positivity)
        exact mul_le_mul_of_nonneg_left (Real.exp_le_exp.2 (by linarith)) hm.le
      · simp only [h2, if_false]
        exact div_le_div_of_nonneg_left hm.le (by positivity) (pow_le_pow_left₀ (by linarith) (by linarith) _)

theorem fade_eq {name : String} {n : ℕ} {depth m : ℝ} {f : ℝ → ℝ} (hf : dynamicParameter name n |depth| m = some f) {r : ℝ} (hr : 0 < r) :
    f r = coneOpacity name n depth m r := by
  have hh : heaviside1 ((SignType.sign |depth| : ℝ) * r) = 1 := by
    apply heaviside1_nonneg
    by_cases h0 : depth = 0
    · simp [h0]
    · rw [sign_pos (abs_pos.2 h0)]; simpa using hr.le
  rcases (dynamicParameter_isSome name n |depth| m).1 (by rw [hf]; rfl) with rfl | rfl | rfl
  all_goals
    simp only [dynamicParameter, String.reduceEq, if_true, if_false, Option.some.injEq] at hf
    rw [← hf]
    simp only [hh, one_mul, coneOpacity, String.reduceEq, if_true, if_false]
  · by_cases h0 : depth = 0
    · simp only [h0, abs_zero, if_true]; ring
    · simp only [h0, abs_eq_zero, if_false]; ring
  · by_cases h0 : depth = 0
    · simp only [h0, abs_zero, if_true]; ring_nf
    · simp only [h0, abs_eq_zero, if_false]; ring_nf
  · rw [max_eq_left hr.le]

theorem coneLoop_eq {name : String} {n : ℕ} {depth m : ℝ} (sgn : ℝ) (geom : Point → ℝ → Except Err (Option γ)) (co : EId → Point) (time : ℝ) (G : EId → Option γ) :
    ∀ events : List EId, (∀ e ∈ events, geom (co e) time = .ok (G e)) → ∀ l, coneLoop (dynamicParameter name n |depth| m) sgn geom co time events = .ok l →
      l = events.filterMap (fun e => if 0 < sgn * (time - co e 0) ∧ 0 < coneOpacity name n depth m (sgn * (time - co e 0)) then
        (G e).map (fun x => (coneOpacity name n depth m (sgn * (time - co e 0)), x)) else none)
  | [], _, l, h => by cases h; rfl
  | e :: t, hG, l, h => by
    unfold coneLoop at h
    have ih := coneLoop_eq (name := name) (n := n) (depth := depth) (m := m) sgn geom co time G t (fun e he => hG e (by simp [he]))
    rcases h1 : coneArt (dynamicParameter name n |depth| m) sgn geom (co e) time with x | c
    · rw [h1] at h; cases h
    rcases h2 : coneLoop (dynamicParameter name n |depth| m) sgn geom co time t with x | r
    · rw [h1, h2] at h; cases h
    rw [h1, h2] at h
    simp only [bind, Except.bind, pure, Except.pure, Except.ok.injEq] at h
    have hc : c = if 0 < sgn * (time - co e 0) ∧ 0 < coneOpacity name n depth m (sgn * (time - co e 0)) then
        (G e).map (fun x => (coneOpacity name n depth m (sgn * (time - co e 0)), x)) else none := by
      unfold coneArt at h1
      dsimp only at h1
      by_cases hr : sgn * (time - co e 0) ≤ 0
      · rw [if_pos hr] at h1
        cases h1
        rw [if_neg (fun hh => absurd hh.1 (not_lt.2 hr))]
      · rw [if_neg hr] at h1
        have hr' := not_le.1 hr
        rcases hf : dynamicParameter name n |depth| m with _ | f
        · rw [hf] at h1; cases h1
        · rw [hf] at h1
          dsimp only at h1
          rw [fade_eq hf hr', hG e (by simp)] at h1
          by_cases ho : coneOpacity name n depth m (sgn * (time - co e 0)) ≤ 0
          · rw [if_pos ho] at h1
            cases h1
            rw [if_neg (fun hh => absurd hh.2 (not_lt.2 ho))]
          · rw [if_neg ho] at h1
            rw [if_pos ⟨hr', not_le.1 ho⟩]
            rcases hg : G e with _ | x
            · rw [hg] at h1; cases h1; rfl
            · rw [hg] at h1; cases h1; rfl
    rw [List.filterMap_cons, ← hc, ← ih r h2, ← h]
    cases c <;> rfl

theorem coneMax_num {g dc : Scheme} {b : Bool} {sw : Switch} {out : Option PDict} (hs : SwitchSpec g (conesDefault dc b) [] sw out) {m : ℝ} (hm : ConeMax sw m) :
    ∃ d, out = some d ∧ dictNum d "alpha" 1 = m := by
  have hne : sw ≠ .off := by rcases hm with ⟨h, -⟩ | ⟨u, h, -⟩ <;> rw [h] <;> simp
  obtain ⟨d, e, hd, hmem⟩ := hs.2 hne
  refine ⟨d, e, ?_⟩
  have hdef : ("alpha", PyVal.other (.num (1 / 10))) ∈ conesDefault dc b := by unfold conesDefault; split <;> simp
  have hset : SettingOf (conesDefault dc b) [] sw "alpha" (.other (.num m)) := by
    rcases hm with ⟨h, rfl⟩ | ⟨u, h, hu⟩
    · subst h; exact hdef
    · subst h
      refine Or.inr ⟨by simp, ?_⟩
      rcases hu with hu | ⟨hu, rfl⟩
      · exact Or.inl hu
      · exact Or.inr ⟨hu, hdef⟩
  have : ("alpha", PyVal.other (.num m)) ∈ d := (hmem _ _).2 ⟨_, hset, rfl⟩
  have hl := (lookup_iff d hd _ _).2 this
  unfold dictNum
  rw [hl]

/-- **C90.** In every plot that returns, with a spacetime whose past (future) cone of the event `e` is `GP e` (`GF e`): no past cones are drawn if they are switched off; otherwise they are drawn, in the order
of the events, for exactly those events that are after the first time value, have a cone and a positive opacity; the opacity is that of the fading function with the chosen time depth and maximum
at the time distance of the event.  The same holds for future cones and the events before the last time value. -/
theorem C90_cones (it : Iter) (eps : ℝ) (g dc : Scheme) (hg : IsDict g) (geomP geomF : Point → ℝ → Except Err (Option γ)) (co : EId → Point) (E : PlotTarget) (a : PlotArgs)
    (ha : a.WF) (t0 t1 : ℝ) (h : Heap) (out : PlotOut γ) (hr : ((plotter it eps g dc geomP geomF co E a t0 t1).run h).1 = .ok out) (GP GF : EId → Option γ)
    (hP : ∀ e ∈ targetEvents it E, geomP (co e) t0 = .ok (GP e)) (hF : ∀ e ∈ targetEvents it E, geomF (co e) t1 = .ok (GF e)) :
    (a.pastcones = .off → out.pastcones = none) ∧ (a.futurecones = .off → out.futurecones = none) ∧
    (∀ m, ConeMax a.pastcones m → out.pastcones = some ((targetEvents it E).filterMap (fun e =>
      let r := co e 0 - t0
      if 0 < r ∧ 0 < coneOpacity a.conetimefade a.dims.length a.conetimedepth m r then
        (GP e).map (fun x => (coneOpacity a.conetimefade a.dims.length a.conetimedepth m r, x)) else none))) ∧
    (∀ m, ConeMax a.futurecones m → out.futurecones = some ((targetEvents it E).filterMap (fun e =>
      let r := t1 - co e 0
      if 0 < r ∧ 0 < coneOpacity a.conetimefade a.dims.length a.conetimedepth m r then
        (GF e).map (fun x => (coneOpacity a.conetimefade a.dims.length a.conetimedepth m r, x)) else none))) := by
  obtain ⟨p, hp, -, hpc, hfc, -⟩ := plotter_ok_inv it eps g dc geomP geomF co E a t0 t1 h out hr
  obtain ⟨hl, -, h3, -, -, -, ectf, ectd, s1, s2, -⟩ := C79_parameters g dc hg a ha p hp
  have hdim : (if p.is3d = true then 3 else 2) = a.dims.length := by
    by_cases h : p.is3d = true
    · rw [if_pos h, h3.1 h]
    · rw [if_neg h]
      rcases hl with hl | hl
      · exact hl.symm
      · exact absurd (h3.2 hl) h
  unfold conePart at hpc hfc
  rw [ectf, ectd, hdim] at hpc hfc
  refine ⟨fun ho => ?_, fun ho => ?_, fun m hm => ?_, fun m hm => ?_⟩
  · rw [s1.1 ho] at hpc; exact (Except.ok.inj hpc).symm
  · rw [s2.1 ho] at hfc; exact (Except.ok.inj hfc).symm
  · obtain ⟨d, hd, hn⟩ := coneMax_num s1 hm
    rw [hd] at hpc
    dsimp only at hpc
    rw [hn] at hpc
    split at hpc
    · cases hpc
    · rcases hc : coneLoop (dynamicParameter a.conetimefade a.dims.length |a.conetimedepth| m) (-1) geomP co t0 (targetEvents it E) with x | l
      · rw [hc] at hpc; cases hpc
      · rw [hc] at hpc
        have := coneLoop_eq (-1) geomP co t0 GP _ hP l hc
        have e : ∀ x : EId, (-1 : ℝ) * (t0 - co x 0) = co x 0 - t0 := fun x => by ring
        simp only [e] at this
        rw [← this]
        exact (Except.ok.inj hpc).symm
  · obtain ⟨d, hd, hn⟩ := coneMax_num s2 hm
    rw [hd] at hfc
    dsimp only at hfc
    rw [hn] at hfc
    split at hfc
    · cases hfc
    · rcases hc : coneLoop (dynamicParameter a.conetimefade a.dims.length |a.conetimedepth| m) 1 geomF co t1 (targetEvents it E) with x | l
      · rw [hc] at hfc; cases hfc
      · rw [hc] at hfc
        have := coneLoop_eq 1 geomF co t1 GF _ hF l hc
        simp only [one_mul] at this
        rw [← this]
        exact (Except.ok.inj hfc).symm

/-- **Specification.** The first and the last time value of the argument `time` of `plot`. -/
def PlotTime.firstLast : PlotTime → ℝ × ℝ
  | .unset => (0, 0)
  | .one t => (t, t)
  | .two t0 t1 => (t0, t1)

/-- **C90, `plot`.** `plot` draws the past cones of later events down to the first and the future cones of earlier events up to the last of its time values, which are 0 by default
and equal if one number is given. -/
theorem C90_plot (it : Iter) (eps : ℝ) (g dc : Scheme) (hg : IsDict g) (geomP geomF : Point → ℝ → Except Err (Option γ)) (co : EId → Point) (E : PlotTarget) (a : PlotArgs)
    (ha : a.WF) (time : PlotTime) (h : Heap) (out : PlotOut γ) (hr : ((plotCall it eps g dc geomP geomF co E a time).run h).1 = .ok out) (GP GF : EId → Option γ)
    (hP : ∀ e ∈ targetEvents it E, geomP (co e) time.firstLast.1 = .ok (GP e)) (hF : ∀ e ∈ targetEvents it E, geomF (co e) time.firstLast.2 = .ok (GF e)) :
    (∀ m, ConeMax a.pastcones m → out.pastcones = some ((targetEvents it E).filterMap (fun e =>
      let r := co e 0 - time.firstLast.1
      if 0 < r ∧ 0 < coneOpacity a.conetimefade a.dims.length a.conetimedepth m r then
        (GP e).map (fun x => (coneOpacity a.conetimefade a.dims.length a.conetimedepth m r, x)) else none))) ∧
    (∀ m, ConeMax a.futurecones m → out.futurecones = some ((targetEvents it E).filterMap (fun e =>
      let r := time.firstLast.2 - co e 0
      if 0 < r ∧ 0 < coneOpacity a.conetimefade a.dims.length a.conetimedepth m r then
        (GF e).map (fun x => (coneOpacity a.conetimefade a.dims.length a.conetimedepth m r, x)) else none))) := by
  cases time <;> exact (C90_cones it eps g dc hg geomP geomF co E a ha _ _ h out hr GP GF hP hF).2.2

/-- C90: a plot of the diamond with past cones returns, so that the theorem applies to it -/
example (calls : List String) (co : EId → Point) : ∃ out, ((plotter (γ := Unit) Iter.asc (1 / 10 ^ 7) (globalAfter calls) defaultColors
    (fun _ _ => .ok (some ())) (fun _ _ => .ok none) co (.list [0, 1, 2, 3]) { pastcones := .on } 0 0).run exDiamond).1 = .ok out := by
  refine (C78_iff Iter.asc _ _ _ (globalAfter_dict calls) _ _ (fun _ _ => ⟨_, rfl⟩) (fun _ _ => ⟨_, rfl⟩) co (.list [0, 1, 2, 3]) { pastcones := .on } ⟨trivial, trivial, trivial, trivial, trivial⟩ 0 0 exDiamond_reach
    (by decide)).2 ?_
  refine ⟨Or.inl rfl, ⟨.unset, rfl, by simp⟩, (C79_defaults calls { pastcones := .on } (by simp)).1, fun _ => ⟨by simp, Or.inl (Or.inr (Or.inr rfl))⟩, fun h => absurd rfl h, fun h => absurd rfl h⟩

end Causets
