import Verif.Props.PlotParams
import Verif.Props.PlotDynamic
import Verif.Props.PlotStatic
import Verif.Props.Events

/-! # C57 (repeated events), C77, C78, C79 — axis limits and outcome of the plotting function (causetplotting.py) -/

namespace Causets
open Heap CoordinateShape

/-! ## C79: the default parameters and the size of link gaps -/

theorem globalAfter_dict (calls : List String) : IsDict (globalAfter calls) := by
  obtain ⟨⟨n, hn, -⟩, -⟩ := C56_global calls
  exact colorSchemes_isDict.2 _ hn

theorem defaultColors_known (calls : List String) : ∀ p ∈ defaultColors, ¬ UnknownColor (globalAfter calls) p.2 := by
  intro p hp hu
  obtain ⟨c, hc⟩ := C56_defaults calls p hp
  have := ((C56_getColor (globalAfter calls) (globalAfter_dict calls) p.2 none).2 (globalAfter calls) rfl).2.2 hu
  rw [this] at hc; cases hc

theorem plain_known (g : Scheme) (v : String) (hv : startsCs v = false) : ¬ UnknownColor g v := by
  rintro ⟨x, rfl, -⟩
  have := (startsCs_iff ("cs:" ++ x)).2 ⟨x, rfl⟩
  rw [this] at hv; cases hv

/-- **C79, defaults.** After every sequence of `setGlobalColorScheme` calls: switches that are only True or False never name an unknown colour, so `plot_parameters` returns whenever 2 or 3 dimensions are given and the axis limits can be computed. -/
theorem C79_defaults (calls : List String) (a : PlotArgs) (h : ∀ s ∈ [a.pastcones, a.futurecones, a.links, a.events, a.labels], s = .on ∨ s = .off) :
    a.Known (globalAfter calls) defaultColors ∧
    ((∃ p, plotParameters (globalAfter calls) defaultColors a = .ok p) ↔ ((a.dims.length = 2 ∨ a.dims.length = 3) ∧ ∃ l, plotAxislim a = .ok l)) := by
  have hd := defaultColors_known calls
  have hk : ∀ (d late : PDict) (s : Switch), (s = .on ∨ s = .off) → (∀ k v, (k, PyVal.str v) ∈ d → startsCs v = false ∨ ∃ p ∈ defaultColors, p.2 = v) →
      KnownColors (globalAfter calls) d late s := by
    rintro d late s (rfl | rfl) hm k v hv
    · rcases hm k v hv with h | ⟨p, hp, rfl⟩
      · exact plain_known _ _ h
      · exact hd p hp
    · exact hv.elim
  simp only [List.mem_cons, List.not_mem_nil, or_false, forall_eq_or_imp, forall_eq] at h
  obtain ⟨h1, h2, h3, h4, h5⟩ := h
  have cones : ∀ b k v, (k, PyVal.str v) ∈ conesDefault defaultColors b → startsCs v = false ∨ ∃ p ∈ defaultColors, p.2 = v := by
    intro b k v hm
    cases b <;> simp [conesDefault, defaultColor, defaultColors, List.lookup] at hm <;> rcases hm with ⟨-, rfl⟩ | ⟨-, rfl⟩ <;> decide
  have links : ∀ b k v, (k, PyVal.str v) ∈ linksDefault defaultColors b → startsCs v = false ∨ ∃ p ∈ defaultColors, p.2 = v := by
    intro b k v hm
    cases b
    · simp [linksDefault, defaultColor, defaultColors, List.lookup] at hm
      rcases hm with ⟨-, rfl⟩ | ⟨-, rfl⟩ | ⟨-, rfl⟩ | ⟨-, rfl⟩ | ⟨-, rfl⟩ <;> decide
    · simp [linksDefault, defaultColor, defaultColors, List.lookup, dictUpdate, dictSet] at hm
      rcases hm with ⟨-, rfl⟩ | ⟨-, rfl⟩ | ⟨-, rfl⟩ <;> decide
  have events : ∀ k v, (k, PyVal.str v) ∈ eventsDefault defaultColors → startsCs v = false ∨ ∃ p ∈ defaultColors, p.2 = v := by
    intro k v hm
    simp [eventsDefault, defaultColor, defaultColors, List.lookup] at hm
    rcases hm with ⟨-, rfl⟩ | ⟨-, rfl⟩ | ⟨-, rfl⟩ | ⟨-, rfl⟩ <;> decide
  have labels : ∀ k v, (k, PyVal.str v) ∈ labelsDefault → startsCs v = false ∨ ∃ p ∈ defaultColors, p.2 = v := by
    intro k v hm
    simp [labelsDefault] at hm
    rcases hm with ⟨-, rfl⟩ | ⟨-, rfl⟩ <;> decide
  have known : a.Known (globalAfter calls) defaultColors :=
    ⟨hk _ _ _ h1 (cones _), hk _ _ _ h2 (cones _), hk _ _ _ h3 (links _), hk _ _ _ h4 events, hk _ _ _ h5 labels⟩
  have wf : a.WF := by
    have w : ∀ s : Switch, (s = .on ∨ s = .off) → s.WF := by rintro s (rfl | rfl) <;> trivial
    exact ⟨w _ h1, w _ h2, w _ h3, w _ h4, w _ h5⟩
  obtain ⟨e1, e2⟩ := C79_errors _ defaultColors (globalAfter_dict calls) a wf
  refine ⟨known, fun ⟨p, hp⟩ => ?_, fun ⟨hl, l, hax⟩ => (((e2 hl).2 l hax).1).2 known⟩
  have hl : a.dims.length = 2 ∨ a.dims.length = 3 := by
    by_contra hc; rw [e1 hc] at hp; cases hp
  rcases hax : plotAxislim a with x | l
  · rw [(e2 hl).1 x hax] at hp; cases hp
  · exact ⟨hl, l, rfl⟩

/-- **C79, link gaps, refuted.** A positive `linkgapsize` is not the marker size of the gaps with the default `links=True`: the size stays 5 after every sequence of `setGlobalColorScheme` calls. -/
theorem C79_linkgap_refuted (calls : List String) (a : PlotArgs) (hl : a.links = .on) (p : PlotParams) (ha : a.WF)
    (hp : plotParameters (globalAfter calls) defaultColors a = .ok p) :
    ∃ d, p.links = some d ∧ ("markersize", PyVal.other (PlotVal.num 5)) ∈ d ∧ ∀ s, ("markersize", PyVal.other (PlotVal.num s)) ∈ d → s = 5 := by
  obtain ⟨-, -, -, -, -, -, -, -, -, -, h, -⟩ := C79_parameters _ defaultColors (globalAfter_dict calls) a ha p hp
  rw [hl] at h
  obtain ⟨d, e, hd, hm⟩ := h.2 (by simp)
  have mem : ("markersize", PyVal.other (PlotVal.num 5)) ∈ linksDefault defaultColors (decide (0 < a.linkgapsize)) := by
    cases decide (0 < a.linkgapsize) <;> simp [linksDefault, dictUpdate, dictSet]
  have h5 : ("markersize", PyVal.other (PlotVal.num 5)) ∈ d := (hm _ _).2 ⟨_, mem, rfl⟩
  refine ⟨d, e, h5, fun s hs => ?_⟩
  have e1 := (lookup_iff d hd _ _).2 h5
  have e2 := (lookup_iff d hd _ _).2 hs
  rw [e1] at e2
  simpa using e2.symm

/-- With a dictionary `links` (also the empty one) a positive `linkgapsize` is the marker size, whatever the user set. -/
theorem C79_linkgap_partial (g dc : Scheme) (hg : IsDict g) (a : PlotArgs) (u : PDict) (hl : a.links = .dict u) (hs : 0 < a.linkgapsize) (p : PlotParams) (ha : a.WF)
    (hp : plotParameters g dc a = .ok p) : ∃ d, p.links = some d ∧ ∀ v, ("markersize", v) ∈ d ↔ v = PyVal.other (PlotVal.num a.linkgapsize) := by
  obtain ⟨-, -, -, -, -, -, -, -, -, -, h, -⟩ := C79_parameters g dc hg a ha p hp
  rw [hl] at h
  obtain ⟨d, e, hd, hm⟩ := h.2 (by simp)
  have h5 : ("markersize", PyVal.other (PlotVal.num a.linkgapsize)) ∈ d :=
    (hm _ _).2 ⟨.other (.num a.linkgapsize), Or.inl (by simp [gapSetting, hs]), rfl⟩
  refine ⟨d, e, fun v => ⟨fun hv => ?_, fun hv => hv ▸ h5⟩⟩
  have e1 := (lookup_iff d hd _ _).2 h5
  have e2 := (lookup_iff d hd _ _).2 hv
  rw [e1] at e2
  exact (Option.some.inj e2).symm

/-- **Specification.** The defaults in the documentation of `plot_parameters` (causetplotting.py:92-150), where `color` gives the entries of `default_colors`. -/
noncomputable def Documented (color : String → String) : (group : String) → (is3d : Bool) → List (String × PyVal PlotVal)
  | "links", _ => [("linewidth", .other (.num 2)), ("linestyle", .str "-"), ("markevery", .other (.nums [])), ("color", .str (color "links")), ("marker", .str "o"),
      ("markersize", .other (.num 5)), ("markeredgecolor", .str (color "linksedge")), ("markerfacecolor", .str (color "linksface"))]
  | "events", _ => [("linewidth", .other (.num 2)), ("linestyle", .str ""), ("marker", .str "o"), ("markersize", .other (.num 7)),
      ("markeredgecolor", .str (color "eventsedge")), ("markerfacecolor", .str (color "eventsface"))]
  | "labels", _ => [("verticalalignment", .str "top"), ("horizontalalignment", .str "right")]
  | "cones", false => [("edgecolor", .str (color "conesedge")), ("facecolor", .str "none"), ("alpha", .other (.num 0.1))]
  | "cones", true => [("edgecolor", .str "none"), ("color", .str (color "conesface")), ("alpha", .other (.num 0.1))]
  | _, _ => []

/-- **C79, documented defaults.** For every group of artists, the parameters are the settings of the user over the documented defaults, with the colours of the scheme, in plots with 2 and with
3 dimensions; if `linkgapsize` is positive, the markers of links are transparent by default. -/
theorem C79_documented (g dc : Scheme) (hg : IsDict g) (color : String → String)
    (hdc : ∀ k ∈ ["links", "linksedge", "linksface", "eventsedge", "eventsface", "conesedge", "conesface"], dc.lookup k = some (color k))
    (a : PlotArgs) (ha : a.WF) (p : PlotParams) (hp : plotParameters g dc a = .ok p) :
    SwitchSpec g (Documented color "cones" p.is3d) [] a.pastcones p.pastcones ∧ SwitchSpec g (Documented color "cones" p.is3d) [] a.futurecones p.futurecones ∧
    (a.linkgapsize ≤ 0 → SwitchSpec g (Documented color "links" p.is3d) [] a.links p.links) ∧
    (0 < a.linkgapsize → SwitchSpec g ((Documented color "links" p.is3d).map fun q =>
        (q.1, if q.1 = "markeredgecolor" ∨ q.1 = "markerfacecolor" then .other (.nums [0, 0, 0, 0]) else q.2)) [("markersize", .other (.num a.linkgapsize))] a.links p.links) ∧
    SwitchSpec g (Documented color "events" p.is3d) [] a.events p.events ∧ SwitchSpec g (Documented color "labels" p.is3d) [] a.labels p.labels := by
  obtain ⟨-, -, -, -, -, -, -, -, h1, h2, h3, h4, h5, -⟩ := C79_parameters g dc hg a ha p hp
  simp only [List.mem_cons, List.not_mem_nil, or_false, forall_eq_or_imp, forall_eq] at hdc
  obtain ⟨c1, c2, c3, c4, c5, c6, c7⟩ := hdc
  have e1 : conesDefault dc p.is3d = Documented color "cones" p.is3d := by
    cases p.is3d <;> simp [conesDefault, Documented, defaultColor, c6, c7] <;> norm_num
  have e4 : eventsDefault dc = Documented color "events" p.is3d := by simp [eventsDefault, Documented, defaultColor, c4, c5]
  rw [e1] at h1 h2
  rw [e4] at h4
  refine ⟨h1, h2, fun hz => ?_, fun hz => ?_, h4, h5⟩
  · simpa [linksDefault, Documented, defaultColor, gapSetting, not_lt.2 hz, c1, c2, c3] using h3
  · simpa [linksDefault, Documented, defaultColor, gapSetting, hz, c1, c2, c3, dictUpdate, dictSet] using h3

/-- hypotheses satisfiable: the default colours -/
example : ∀ k ∈ ["links", "linksedge", "linksface", "eventsedge", "eventsface", "conesedge", "conesface"], defaultColors.lookup k = some ((defaultColors.lookup k).getD "") := by
  intro k hk
  fin_cases hk <;> rfl

/-! ## C77: axis limits -/

/-- **C77, plots in 2 dimensions.** With the keyword argument `shape` and `axislim` not set or 'shape': the limits are the least and the greatest coordinates of the points of the shape in the two dimensions of the plot. -/
theorem C77_two (a : PlotArgs) (S : CoordinateShape) (hS : S.WellFormed) (hs : a.shape = some S) (hx : a.axislim = .unset ∨ a.axislim = .str "shape")
    (i j : ℕ) (hd : a.dims = [(i : ℤ), (j : ℤ)]) :
    (i < S.dim → j < S.dim → ∃ x0 x1 y0 y1, plotAxislim a = .ok (.lims [("xlim", (x0, x1)), ("ylim", (y0, y1))]) ∧
      (∀ q ∈ S.region, x0 ≤ q i ∧ q i ≤ x1 ∧ y0 ≤ q j ∧ q j ≤ y1) ∧
      (¬ (S.name = "cylinder" ∧ S.dim = 1 ∧ 0 < S.hollow.getD 0) →
        IsLeast ((fun x : Point => x i) '' S.region) x0 ∧ IsGreatest ((fun x : Point => x i) '' S.region) x1 ∧
        IsLeast ((fun x : Point => x j) '' S.region) y0 ∧ IsGreatest ((fun x : Point => x j) '' S.region) y1)) ∧
    (¬ (i < S.dim ∧ j < S.dim) → plotAxislim a = .error .valueError) := by
  have e : plotAxislim a = axisFromShape S a.dims := by
    unfold plotAxislim
    rcases hx with h | h <;> simp [h, hs]
  rw [e, hd]
  refine ⟨fun hi hj => ?_, fun hn => ?_⟩
  · obtain ⟨x0, x1, h1, -, h3, h4⟩ := (C54_limits S hS i).2 i rfl hi
    obtain ⟨y0, y1, k1, -, k3, k4⟩ := (C54_limits S hS j).2 j rfl hj
    refine ⟨x0, x1, y0, y1, by simp only [axisFromShape, h1, k1], fun q hq => ⟨(h3 q hq).1, (h3 q hq).2, (k3 q hq).1, (k3 q hq).2⟩, fun hne => ?_⟩
    exact ⟨(h4 hne).1, (h4 hne).2, (k4 hne).1, (k4 hne).2⟩
  · by_cases hi : i < S.dim
    · have hj : ¬ j < S.dim := fun hj => hn ⟨hi, hj⟩
      simp only [axisFromShape, limits_ok S i hi, (C54_limits S hS j).1 (by omega)]
    · simp only [axisFromShape, (C54_limits S hS i).1 (by omega)]

theorem centerAt_ok (S : CoordinateShape) (hS : S.WellFormed) (i : ℕ) (hi : i < S.dim) : centerAt S i = .ok (S.centerPoint i) := by
  have hc : S.center.length = S.dim := hS.2.1
  unfold centerAt npIndex
  simp [hc, hi, centerPoint]

/-- **C77, plots in 3 dimensions.** In 3 dimensions the limits are a cube around the centre of the shape that contains all points of the shape; if the three dimensions are different, no smaller cube around the centre has a half edge
of at least half of the extent (`Limits`) in each of them. -/
theorem C77_three (a : PlotArgs) (S : CoordinateShape) (hS : S.WellFormed) (hs : a.shape = some S) (hx : a.axislim = .unset ∨ a.axislim = .str "shape")
    (i j k : ℕ) (hd : a.dims = [(i : ℤ), (j : ℤ), (k : ℤ)]) (hi : i < S.dim) (hj : j < S.dim) (hk : k < S.dim) :
    ∃ w, plotAxislim a = .ok (.lims [("xlim", (S.centerPoint i - w, S.centerPoint i + w)), ("ylim", (S.centerPoint j - w, S.centerPoint j + w)),
        ("zlim", (S.centerPoint k - w, S.centerPoint k + w))]) ∧
      (∀ q ∈ S.region, |q i - S.centerPoint i| ≤ w ∧ |q j - S.centerPoint j| ≤ w ∧ |q k - S.centerPoint k| ≤ w) ∧
      ([i, j, k].Nodup → ∃ n ∈ [i, j, k], ∀ lo hi, S.limits n = .ok (lo, hi) → (hi - lo) / 2 = w) := by
  have e : plotAxislim a = axisFromShape S a.dims := by
    unfold plotAxislim
    rcases hx with h | h <;> simp [h, hs]
  have hall : ∀ n ∈ [i, j, k], n < S.dim := by simp [hi, hj, hk]
  obtain ⟨w, h1, h2, h3⟩ := C54_maxEdgeHalf S hS [i, j, k] (by simp) hall
  have hw : ∀ n ∈ [i, j, k], halfWidth S n ≤ w := by
    intro n hn
    have := h2 n hn _ _ (limits_ok S n (hall n hn))
    linarith
  refine ⟨w, ?_, fun q hq => ⟨?_, ?_, ?_⟩, fun hnd => h3 ?_⟩
  · rw [e, hd]
    simp only [List.map_cons, List.map_nil] at h1
    simp only [axisFromShape, h1, centerAt_ok S hS i hi, centerAt_ok S hS j hj, centerAt_ok S hS k hk]
  · exact (region_le S hS hq hi).trans (hw i (by simp))
  · exact (region_le S hS hq hj).trans (hw j (by simp))
  · exact (region_le S hS hq hk).trans (hw k (by simp))
  · rintro ⟨-, h0⟩
    have a1 := h0 i (by simp)
    have a2 := h0 j (by simp)
    subst a1; subst a2
    simp at hnd

/-- **C77, limits of the user.** Limits given by the user are kept, with and without a shape. -/
theorem C77_user (a : PlotArgs) (d : List (String × (ℝ × ℝ))) (hx : a.axislim = .lims d) : plotAxislim a = .ok (.lims d) := by
  simp [plotAxislim, hx]

/-- **C77, other texts and no shape.** A text other than "shape" is not replaced by limits, and without a shape nothing is. -/
theorem C77_kept (a : PlotArgs) (hx : (∃ s, a.axislim = .str s ∧ s ≠ "shape") ∨ a.shape = none) : plotAxislim a = .ok a.axislim := by
  unfold plotAxislim
  rcases hx with ⟨s, e, hs⟩ | e
  · simp [e, hs]
  · rw [e]; cases a.axislim <;> simp <;> split <;> simp_all

variable {γ : Type}

/-- what a successful call has to pass -/
theorem plotter_ok_inv (it : Iter) (eps : ℝ) (g dc : Scheme) (geomP geomF : Point → ℝ → Except Err (Option γ)) (co : EId → Point) (E : PlotTarget) (a : PlotArgs)
    (t0 t1 : ℝ) (h : Heap) (out : PlotOut γ) (hr : ((plotter it eps g dc geomP geomF co E a t0 t1).run h).1 = .ok out) :
    ∃ p, plotParameters g dc a = .ok p ∧ setAxis p.is3d p.axislim = .ok out.axis ∧
      conePart p p.pastcones (-1) geomP co t0 (targetEvents it E) = .ok out.pastcones ∧
      conePart p p.futurecones 1 geomF co t1 (targetEvents it E) = .ok out.futurecones ∧
      (∀ depth, p.timedepth = some depth → ∃ ld, p.links = some ld ∧ (targetEvents it E ≠ [] →
        (dynamicParameter p.timefade (if p.is3d then 3 else 2) depth (dictNum (p.events.getD []) "alpha" 1)).isSome ∧
        (dynamicParameter p.timefade (if p.is3d then 3 else 2) depth (dictNum ld "linewidth" 0)).isSome)) := by
  unfold plotter at hr
  rcases hp : plotParameters g dc a with x | p
  · rw [hp] at hr; cases hr
  · rw [hp] at hr
    refine ⟨p, rfl, ?_⟩
    simp only [StateT.run_bind] at hr
    revert hr
    generalize (((if p.links.isSome then linkCountOf it (targetEvents it E).toFinset else pure 0 : StateM Heap ℕ)).run h) = r1
    obtain ⟨n, h1⟩ := r1
    intro hr
    simp only [bind, Id.run] at hr
    rcases hpc : conePart p p.pastcones (-1) geomP co t0 (targetEvents it E) with x | pc
    · rw [hpc] at hr; cases hr
    · rcases hfc : conePart p p.futurecones 1 geomF co t1 (targetEvents it E) with x | fc
      · rw [hpc, hfc] at hr; cases hr
      · rw [hpc, hfc] at hr
        simp only [StateT.run, StateT.bind, bind] at hr
        rcases hdr : (drawPart eps p co t0 (targetEvents it E) n h1) with ⟨x | ⟨H, V, L⟩, h2⟩
        · rw [hdr] at hr; cases hr
        · rw [hdr] at hr
          simp only at hr
          rcases hax : setAxis p.is3d p.axislim with x | ax
          · rw [hax] at hr; cases hr
          · rw [hax] at hr
            cases hr
            refine ⟨rfl, rfl, rfl, fun depth hd => ?_⟩
            unfold drawPart at hdr
            simp only [hd] at hdr
            rcases hl : p.links with _ | ld
            · rw [hl] at hdr; cases hdr
            · rw [hl] at hdr
              simp only at hdr
              refine ⟨ld, rfl, fun hne => ?_⟩
              rcases h3 : dynamicParameter p.timefade (if p.is3d then 3 else 2) depth (dictNum (p.events.getD []) "alpha" 1) with _ | fe
              · rw [h3] at hdr
                simp only [if_neg hne] at hdr
                cases hdr
              · rcases h4 : dynamicParameter p.timefade (if p.is3d then 3 else 2) depth (dictNum ld "linewidth" 0) with _ | fl
                · rw [h3, h4] at hdr
                  simp only [if_neg hne] at hdr
                  cases hdr
                · exact ⟨rfl, rfl⟩

/-- **C77, embedded causets, refuted.** The shape is not set automatically when plotting an `EmbeddedCauset` (or anything else): without the keyword argument `shape`, no axis limits are set if `axislim` is not given, and with
`axislim='shape'` the plotting function never returns normally. -/
theorem C77_automatic_refuted (it : Iter) (eps : ℝ) (g dc : Scheme) (geomP geomF : Point → ℝ → Except Err (Option γ)) (co : EId → Point) (E : PlotTarget) (a : PlotArgs)
    (t0 t1 : ℝ) (h : Heap) (hs : a.shape = none) :
    (a.axislim = .unset → ∀ out, ((plotter it eps g dc geomP geomF co E a t0 t1).run h).1 = .ok out → out.axis = []) ∧
    (a.axislim = .str "shape" → ∀ out, ((plotter it eps g dc geomP geomF co E a t0 t1).run h).1 ≠ .ok out) := by
  have key : ∀ p, plotParameters g dc a = .ok p → plotAxislim a = .ok p.axislim := by
    intro p hp
    unfold plotParameters at hp
    split at hp
    · cases hp
    · rcases hl : plotAxislim a with x | l
      · rw [hl] at hp; cases hp
      · rw [hl] at hp
        simp only [bind, Except.bind, pure, Except.pure] at hp
        repeat' (split at hp; · cases hp)
        cases hp
        rfl
  refine ⟨fun hx out hr => ?_, fun hx out hr => ?_⟩
  all_goals
    obtain ⟨p, hp, hax, -⟩ := plotter_ok_inv it eps g dc geomP geomF co E a t0 t1 h out hr
    have := key p hp
    unfold plotAxislim at this
    simp only [hx, hs, decide_true, Except.ok.injEq] at this
    rw [← this] at hax
  · simpa [setAxis] using hax.symm
  · cases hax

/-! ## C78: when the plotting function returns -/

/-- **Specification.** The three implemented fading functions. -/
def FadeName (s : String) : Prop := s = "linear" ∨ s = "exponential" ∨ s = "intensity"

theorem dynamicParameter_some_iff (s : String) (dim : ℕ) (td am : ℝ) : (dynamicParameter s dim td am).isSome ↔ FadeName s := by
  unfold dynamicParameter FadeName
  split_ifs with h1 h2 h3 <;> simp_all

/-- the cones of one sign can be drawn -/
theorem conePart_ok (p : PlotParams) (cones : Option PDict) (sgn : ℝ) (geom : Point → ℝ → Except Err (Option γ)) (hgeom : ∀ c t, ∃ r, geom c t = .ok r)
    (co : EId → Point) (time : ℝ) (events : List EId) :
    (∃ r, conePart p cones sgn geom co time events = .ok r) ↔
      (cones ≠ none → p.conetimefade ≠ "" ∧ (FadeName p.conetimefade ∨ ∀ e ∈ events, sgn * (time - co e 0) ≤ 0)) := by
  unfold conePart
  cases cones with
  | none => simp
  | some d =>
    simp only [ne_eq, reduceCtorEq, not_false_eq_true, forall_const]
    by_cases h0 : p.conetimefade = ""
    · rw [if_pos h0]; simp [h0]
    · rw [if_neg h0]
      simp only [h0, not_false_eq_true, true_and]
      have hf := dynamicParameter_some_iff p.conetimefade (if p.is3d then 3 else 2) |p.conetimedepth| (dictNum d "alpha" 1)
      generalize dynamicParameter p.conetimefade (if p.is3d then 3 else 2) |p.conetimedepth| (dictNum d "alpha" 1) = fade at hf ⊢
      have hart : ∀ c, (∃ r, coneArt fade sgn geom c time = .ok r) ↔ (FadeName p.conetimefade ∨ sgn * (time - c 0) ≤ 0) := by
        intro c
        unfold coneArt
        simp only
        by_cases hr : sgn * (time - c 0) ≤ 0
        · simp [hr]
        · rw [if_neg hr]
          cases fade with
          | none => simp only [Option.isSome_none, Bool.false_eq_true, false_iff] at hf; simp [hf, hr]
          | some f =>
            simp only [Option.isSome_some, true_iff] at hf
            have hf' : FadeName p.conetimefade := hf
            simp only [hf', true_or, iff_true]
            split_ifs
            · exact ⟨_, rfl⟩
            · obtain ⟨r, hr⟩ := hgeom c time
              rw [hr]
              cases r <;> exact ⟨_, rfl⟩
      have hloop : ∀ l : List EId, (∃ r, coneLoop fade sgn geom co time l = .ok r) ↔ (FadeName p.conetimefade ∨ ∀ e ∈ l, sgn * (time - co e 0) ≤ 0) := by
        intro l
        induction l with
        | nil => simp [coneLoop]
        | cons e l ih =>
          have h1 := hart (co e)
          rw [coneLoop]
          rcases hc : coneArt fade sgn geom (co e) time with x | c
          · rw [hc] at h1
            simp only [reduceCtorEq, exists_false, false_iff, not_or] at h1
            simp only [bind, Except.bind, reduceCtorEq, exists_false, List.mem_cons, forall_eq_or_imp, false_iff]
            rintro (h | h)
            · exact h1.1 h
            · exact h1.2 h.1
          · rw [hc] at h1
            simp only [Except.ok.injEq, exists_eq', true_iff] at h1
            rcases hl : coneLoop fade sgn geom co time l with x | r
            · rw [hl] at ih
              simp only [reduceCtorEq, exists_false, false_iff, not_or] at ih
              simp only [bind, Except.bind, reduceCtorEq, exists_false, List.mem_cons, forall_eq_or_imp, false_iff]
              rintro (h | h)
              · exact ih.1 h
              · exact ih.2 h.2
            · rw [hl] at ih
              simp only [Except.ok.injEq, exists_eq', true_iff] at ih
              simp only [bind, Except.bind, pure, Except.pure, Except.ok.injEq, exists_eq', List.mem_cons, forall_eq_or_imp, true_iff]
              rcases h1 with h | h
              · exact Or.inl h
              · rcases ih with h' | h'
                · exact Or.inl h'
                · exact Or.inr ⟨h, h'⟩
      rw [← hloop events]
      rcases coneLoop fade sgn geom co time events with x | r <;> simp

/-- **Specification.** What the arguments of `Plotter` and of the plotting function have to meet, besides distinct events: 2 or 3 dimensions, computable axis limits that are unset or a dictionary, known colours, causal cones only with a non-empty name of a
fading function (that is implemented if there is a cone to draw), and dynamic mode only with links and with an implemented fading function (if there are events). -/
def Plottable (g dc : Scheme) (co : EId → Point) (events : List EId) (a : PlotArgs) (t0 t1 : ℝ) : Prop :=
  (a.dims.length = 2 ∨ a.dims.length = 3) ∧ (∃ l, plotAxislim a = .ok l ∧ ∀ s, l ≠ .str s) ∧ a.Known g dc ∧
  (a.pastcones ≠ .off → a.conetimefade ≠ "" ∧ (FadeName a.conetimefade ∨ ∀ e ∈ events, t0 ≥ co e 0)) ∧
  (a.futurecones ≠ .off → a.conetimefade ≠ "" ∧ (FadeName a.conetimefade ∨ ∀ e ∈ events, t1 ≤ co e 0)) ∧
  (a.timedepth ≠ none → a.links ≠ .off ∧ (FadeName a.timefade ∨ events = []))

theorem SwitchSpec.none_iff {g : Scheme} {d late : PDict} {sw : Switch} {o : Option PDict} (h : SwitchSpec g d late sw o) : o ≠ none ↔ sw ≠ .off := by
  constructor
  · intro ho hs; exact ho (h.1 hs)
  · intro hs ho
    obtain ⟨d', e, -⟩ := h.2 hs
    rw [ho] at e; cases e

theorem setAxis_ok (b : Bool) (l : AxisLim) : (∃ ax, setAxis b l = .ok ax) ↔ ∀ s, l ≠ .str s := by
  cases l with
  | unset => simp [setAxis]
  | str s => simp [setAxis]
  | lims d =>
    simp only [ne_eq, reduceCtorEq, not_false_eq_true, implies_true, iff_true, setAxis]
    cases List.lookup "xlim" d <;> cases List.lookup "ylim" d <;> simp
    cases b <;> simp
    cases List.lookup "zlim" d <;> simp

/-- **C78.** For distinct events of a consistent state and cones that the spacetime can draw: `Plotter` and the plotting function return normally exactly if the arguments are plottable. -/
theorem C78_iff {h0 : Heap} (it : Iter) (eps : ℝ) (g dc : Scheme) (hg : IsDict g) (geomP geomF : Point → ℝ → Except Err (Option γ))
    (hP : ∀ c t, ∃ r, geomP c t = .ok r) (hF : ∀ c t, ∃ r, geomF c t = .ok r) (co : EId → Point) (E : PlotTarget) (a : PlotArgs) (ha : a.WF)
    (t0 t1 : ℝ) (hr : LinkReachable h0) (hnd : (targetEvents it E).Nodup) :
    (∃ out, ((plotter it eps g dc geomP geomF co E a t0 t1).run h0).1 = .ok out) ↔ Plottable g dc co (targetEvents it E) a t0 t1 := by
  constructor
  · rintro ⟨out, ho⟩
    obtain ⟨p, hp, hax, hpc, hfc, htd⟩ := plotter_ok_inv it eps g dc geomP geomF co E a t0 t1 h0 out ho
    obtain ⟨hl, -, -, hpax, etd, etf, ectf, -, s1, s2, s3, -⟩ := C79_parameters g dc hg a ha p hp
    have hk : a.Known g dc := (((C79_errors g dc hg a ha).2 hl).2 _ hpax).1.1 ⟨p, hp⟩
    replace hpc := (conePart_ok p _ _ _ hP _ _ _).1 ⟨_, hpc⟩
    replace hfc := (conePart_ok p _ _ _ hF _ _ _).1 ⟨_, hfc⟩
    rw [s1.none_iff, ectf] at hpc
    rw [s2.none_iff, ectf] at hfc
    refine ⟨hl, ⟨_, hpax, (setAxis_ok _ _).1 ⟨_, hax⟩⟩, hk, ?_, ?_, ?_⟩
    · intro h
      refine ⟨(hpc h).1, (hpc h).2.imp id fun hh e he => ?_⟩
      have := hh e he; linarith
    · intro h
      refine ⟨(hfc h).1, (hfc h).2.imp id fun hh e he => ?_⟩
      have := hh e he; linarith
    · intro h
      obtain ⟨depth, hdep⟩ := Option.ne_none_iff_exists'.1 h
      obtain ⟨ld, hld, hev⟩ := htd depth (by rw [etd, hdep])
      refine ⟨s3.none_iff.1 (by rw [hld]; simp), ?_⟩
      by_cases hne : targetEvents it E = []
      · exact Or.inr hne
      · have := (hev hne).1
        rw [dynamicParameter_some_iff, etf] at this
        exact Or.inl this
  · rintro ⟨hl, ⟨l, hax, hns⟩, hk, hpc, hfc, htd⟩
    obtain ⟨p, hp⟩ := (((C79_errors g dc hg a ha).2 hl).2 l hax).1.2 hk
    obtain ⟨-, -, -, hpax, etd, etf, ectf, -, s1, s2, s3, -⟩ := C79_parameters g dc hg a ha p hp
    rw [hax] at hpax
    cases hpax
    obtain ⟨ax, hax'⟩ := (setAxis_ok p.is3d p.axislim).2 hns
    obtain ⟨pc, hpc'⟩ := (conePart_ok p p.pastcones (-1) geomP hP co t0 (targetEvents it E)).2 (by
      rw [s1.none_iff, ectf]
      intro h
      refine ⟨(hpc h).1, (hpc h).2.imp id fun hh e he => ?_⟩
      have := hh e he; linarith)
    obtain ⟨fc, hfc'⟩ := (conePart_ok p p.futurecones 1 geomF hF co t1 (targetEvents it E)).2 (by
      rw [s2.none_iff, ectf]
      intro h
      refine ⟨(hfc h).1, (hfc h).2.imp id fun hh e he => ?_⟩
      have := hh e he; linarith)
    have v := hr.valid
    rcases hdep : p.timedepth with _ | depth
    · have := C57_static it eps g dc geomP geomF co E a t0 t1 v hnd p hp pc fc hpc' hfc' hdep ax hax'
      exact ⟨_, (this h0 (SameOrder.refl _) hr.linksExact).1⟩
    · obtain ⟨hlo, hfn⟩ := htd (by rw [← etd, hdep]; simp)
      obtain ⟨ld, hld⟩ := Option.ne_none_iff_exists'.1 (s3.none_iff.2 hlo)
      rcases hfn with hfn | hemp
      · rw [← etf] at hfn
        obtain ⟨fe, hfe⟩ := Option.isSome_iff_exists.1 ((dynamicParameter_some_iff p.timefade (if p.is3d then 3 else 2) depth (dictNum (p.events.getD []) "alpha" 1)).2 hfn)
        obtain ⟨fl, hfl⟩ := Option.isSome_iff_exists.1 ((dynamicParameter_some_iff p.timefade (if p.is3d then 3 else 2) depth (dictNum ld "linewidth" 0)).2 hfn)
        have := C57_dynamic it eps g dc geomP geomF co E a t0 t1 v hnd p hp pc fc hpc' hfc' depth hdep ld hld fe fl hfe hfl ax hax'
        exact ⟨_, (this h0 (SameOrder.refl _) hr.linksExact).1⟩
      · by_cases hfn : FadeName p.timefade
        · obtain ⟨fe, hfe⟩ := Option.isSome_iff_exists.1 ((dynamicParameter_some_iff p.timefade (if p.is3d then 3 else 2) depth (dictNum (p.events.getD []) "alpha" 1)).2 hfn)
          obtain ⟨fl, hfl⟩ := Option.isSome_iff_exists.1 ((dynamicParameter_some_iff p.timefade (if p.is3d then 3 else 2) depth (dictNum ld "linewidth" 0)).2 hfn)
          have := C57_dynamic it eps g dc geomP geomF co E a t0 t1 v hnd p hp pc fc hpc' hfc' depth hdep ld hld fe fl hfe hfl ax hax'
          exact ⟨_, (this h0 (SameOrder.refl _) hr.linksExact).1⟩
        · have n1 : dynamicParameter p.timefade (if p.is3d then 3 else 2) depth (dictNum (p.events.getD []) "alpha" 1) = none := by
            rw [← Option.not_isSome_iff_eq_none, dynamicParameter_some_iff]; exact hfn
          unfold plotter
          rw [hp]
          simp only [hpc', hfc', StateT.run_bind]
          generalize ((if p.links.isSome then linkCountOf it (targetEvents it E).toFinset else pure 0 : StateM Heap ℕ)).run h0 = r1
          obtain ⟨n, h1⟩ := r1
          simp only [drawPart, hdep, hld, n1, hemp, if_true, hax']
          exact ⟨_, rfl⟩

/-- **C78, refuted.** The documented uses "the empty string '' switches off the fading of causal cones" and dynamic mode with `links=False` never return normally, in any state. -/
theorem C78_documented_refuted (it : Iter) (eps : ℝ) (g dc : Scheme) (hg : IsDict g) (geomP geomF : Point → ℝ → Except Err (Option γ)) (co : EId → Point) (E : PlotTarget) (a : PlotArgs)
    (ha : a.WF) (t0 t1 : ℝ) (h : Heap) (hbad : (a.conetimefade = "" ∧ (a.pastcones ≠ .off ∨ a.futurecones ≠ .off)) ∨ (a.timedepth ≠ none ∧ a.links = .off)) (out : PlotOut γ) :
    ((plotter it eps g dc geomP geomF co E a t0 t1).run h).1 ≠ .ok out := by
  intro ho
  obtain ⟨p, hp, hax, hpc, hfc, htd⟩ := plotter_ok_inv it eps g dc geomP geomF co E a t0 t1 h out ho
  obtain ⟨hl, -, -, hpax, etd, etf, ectf, -, s1, s2, s3, -⟩ := C79_parameters g dc hg a ha p hp
  rcases hbad with ⟨hc, h1 | h1⟩ | ⟨h1, h2⟩
  · obtain ⟨d, hd⟩ := Option.ne_none_iff_exists'.1 (s1.none_iff.2 h1)
    unfold conePart at hpc; rw [hd] at hpc
    simp only [ectf, hc, if_true] at hpc
    cases hpc
  · obtain ⟨d, hd⟩ := Option.ne_none_iff_exists'.1 (s2.none_iff.2 h1)
    unfold conePart at hfc; rw [hd] at hfc
    simp only [ectf, hc, if_true] at hfc
    cases hfc
  · obtain ⟨depth, hdep⟩ := Option.ne_none_iff_exists'.1 h1
    obtain ⟨ld, hld, -⟩ := htd depth (by rw [etd, hdep])
    exact s3.none_iff.1 (by rw [hld]; simp) h2

/-- the default arguments, after every sequence of `setGlobalColorScheme` calls, are plottable -/
theorem plottable_defaults (calls : List String) (co : EId → Point) (events : List EId) (t0 t1 : ℝ) :
    Plottable (globalAfter calls) defaultColors co events {} t0 t1 := by
  refine ⟨Or.inl rfl, ⟨.unset, rfl, by simp⟩, (C79_defaults calls {} (by simp)).1, fun h => absurd rfl h, fun h => absurd rfl h, fun h => absurd rfl h⟩

/-- C57, C78: the diamond with the default arguments meets the hypotheses and has 4 link handles, all of them drawn. -/
example (calls : List String) (co : EId → Point) : ∃ out, ((plotter (γ := Unit) Iter.asc (1 / 10 ^ 7) (globalAfter calls) defaultColors
    (fun _ _ => .ok none) (fun _ _ => .ok none) co (.list [0, 1, 2, 3]) {} 0 0).run exDiamond).1 = .ok out :=
  (C78_iff Iter.asc _ _ _ (globalAfter_dict calls) _ _ (fun _ _ => ⟨_, rfl⟩) (fun _ _ => ⟨_, rfl⟩) co (.list [0, 1, 2, 3]) {} ⟨trivial, trivial, trivial, trivial, trivial⟩ 0 0 exDiamond_reach
    (by decide)).2 (plottable_defaults calls co _ 0 0)

/-- **C57, repeated events, refuted.** If a list repeats an event, the linked pairs are more than the handles: for linked events `a`, `b` of every consistent state, the plot of the list `[a, b, a]` with links (in static mode, without cones) raises IndexError. -/
theorem C57_repeated_refuted {h0 : Heap} (it : Iter) (eps : ℝ) (g dc : Scheme) (geomP geomF : Point → ℝ → Except Err (Option γ)) (co : EId → Point) (args : PlotArgs)
    (t0 t1 : ℝ) (v : h0.Valid) (a b : EId) (hab : Covers h0.Lt a b) (p : PlotParams) (hp : plotParameters g dc args = .ok p) (hpc : p.pastcones = none) (hfc : p.futurecones = none)
    (hl : p.links.isSome) (hs : p.timedepth = none) :
    h0.Answers (plotter it eps g dc geomP geomF co (.list [a, b, a]) args t0 t1) (.error .indexError) := by
  have hne : a ≠ b := fun e => v.order.irrefl b (by have := hab.1; rwa [e] at this)
  unfold plotter
  rw [hp]
  simp only [hpc, hfc, conePart, targetEvents, hl, if_true]
  refine Answers.bind (linkCountOf_answers it v _) ?_
  have hcount : (∑ e ∈ ([a, b, a] : List EId).toFinset, (h0.pastLinks e ∩ ([a, b, a] : List EId).toFinset).card) = 1 := by
    have hset : ([a, b, a] : List EId).toFinset = {a, b} := by ext x; simp; tauto
    rw [hset, Finset.sum_pair hne]
    have e1 : h0.pastLinks a ∩ {a, b} = ∅ := by
      ext x
      simp only [Finset.mem_inter, mem_pastLinks v, Finset.mem_insert, Finset.mem_singleton, Finset.notMem_empty, iff_false, not_and, not_or]
      intro hx
      refine ⟨fun e => v.order.irrefl a (by have := hx.1; rwa [e] at this), fun e => ?_⟩
      have h1 := hx.1
      rw [e] at h1
      exact v.order.irrefl a (v.order.trans _ _ _ hab.1 h1)
    have e2 : h0.pastLinks b ∩ {a, b} = {a} := by
      ext x
      simp only [Finset.mem_inter, mem_pastLinks v, Finset.mem_insert, Finset.mem_singleton]
      constructor
      · rintro ⟨hx, rfl | rfl⟩
        · rfl
        · exact absurd hx.1 (v.order.irrefl _)
      · rintro rfl; exact ⟨hab, Or.inl rfl⟩
    rw [e1, e2]; rfl
  rw [hcount]
  unfold drawPart
  simp only [hs, hl, if_true]
  suffices hloop : h0.Answers (linkLoop (staticArt eps p.is3d p.dims co [a, b, a]) (eventPairs [a, b, a]) 0 (List.replicate 1 none)) (.error .indexError) by
    refine AnswersWith.bind (P := fun y => y = .error .indexError) (AnswersWith.bind hloop ?_) ?_
    · rintro _ rfl; exact AnswersWith.pure rfl
    · rintro _ rfl; exact AnswersWith.pure rfl
  simp only [eventPairs, List.map_cons, List.map_nil, List.append_nil, List.cons_append, List.nil_append, List.replicate_one]
  rw [linkLoop]
  refine Answers.bind (isLinkedTo_answers v a b) ?_
  have m1 : b ∈ h0.pastLinks a ∪ h0.futureLinks a := Finset.mem_union.2 (Or.inr ((mem_futureLinks v b a).2 hab))
  have m2 : a ∉ h0.pastLinks a ∪ h0.futureLinks a := by
    simp only [Finset.mem_union, mem_pastLinks v, mem_futureLinks v, not_or]
    exact ⟨fun h => v.order.irrefl a h.1, fun h => v.order.irrefl a h.1⟩
  have m3 : a ∈ h0.pastLinks b ∪ h0.futureLinks b := Finset.mem_union.2 (Or.inl ((mem_pastLinks v a b).2 hab))
  simp only [m1, decide_true, if_true, staticArt, List.length_cons, List.length_nil, zero_add, Nat.lt_one_iff]
  rw [linkLoop]
  refine Answers.bind (isLinkedTo_answers v a a) ?_
  simp only [m2, decide_false, Bool.false_eq_true, if_false]
  rw [linkLoop]
  refine Answers.bind (isLinkedTo_answers v b a) ?_
  simp only [m3, decide_true, if_true, List.length_set, List.length_cons, List.length_nil, zero_add, lt_irrefl, if_false]
  exact Answers.pure

/-- C57_repeated_refuted: the default arguments and the two lowest events of the diamond meet the hypotheses. -/
example : ∃ p, plotParameters (globalAfter []) defaultColors {} = .ok p ∧ p.pastcones = none ∧ p.futurecones = none ∧ p.links.isSome ∧ p.timedepth = none ∧ Covers exDiamond.Lt 0 1 := by
  obtain ⟨p, hp⟩ := (C79_defaults [] {} (by simp)).2.2 ⟨Or.inl rfl, .unset, rfl⟩
  obtain ⟨-, -, -, -, h1, -, -, -, s1, s2, s3, -⟩ := C79_parameters _ _ (globalAfter_dict []) {} ⟨trivial, trivial, trivial, trivial, trivial⟩ p hp
  refine ⟨p, hp, s1.1 rfl, s2.1 rfl, Option.isSome_iff_ne_none.2 (s3.none_iff.2 (by simp)), h1, (mem_futureLinks exDiamond_valid 1 0).1 (by decide)⟩

/-- C77: the limits of a bicone in two of its three dimensions, and the cube around a cuboid. -/
example : (⟨3, "bicone", [1, 2, 3], some 2, some (1 / 2), none, none, none⟩ : CoordinateShape).WellFormed ∧
    (⟨3, "cuboid", [1, 2, 3], none, none, none, none, some [1, 2, 4]⟩ : CoordinateShape).WellFormed :=
  ⟨⟨by norm_num, rfl, Or.inr (Or.inl ⟨2, 1 / 2, by norm_num, by norm_num, by norm_num, rfl⟩)⟩,
   ⟨by norm_num, rfl, Or.inr (Or.inr (Or.inr (Or.inr ⟨[1, 2, 4], rfl, by simp, rfl⟩)))⟩⟩

end Causets
