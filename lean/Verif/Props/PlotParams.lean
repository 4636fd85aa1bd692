import Verif.Props.PlotLinks
import Verif.Props.Fading
import Verif.Props.Colors
import Verif.Props.Limits

/-! # C77, C78, C79 — parameters, axis limits and outcome of the plotting functions (causetplotting.py) -/

namespace Causets
open Heap

/-! ## C79: parameters -/

/-- **Specification.** The value of a parameter before colours are converted: that of `late`, else that of the user, else the default. -/
def Setting (late user dflt : PDict) (k : String) (v : PyVal PlotVal) : Prop :=
  (k, v) ∈ late ∨ ((∀ w, (k, w) ∉ late) ∧ ((k, v) ∈ user ∨ ((∀ w, (k, w) ∉ user) ∧ (k, v) ∈ dflt)))

/-- **Specification.** The settings before colours are converted: none for False, the defaults for True, else user values (and `late`) over defaults. -/
def SettingOf (dflt late : PDict) : Switch → String → PyVal PlotVal → Prop
  | .off, _, _ => False
  | .on, k, v => (k, v) ∈ dflt
  | .dict u, k, v => Setting late u dflt k v

/-- **Specification.** What the parameter dictionary has to hold: no dictionary for False, otherwise a dictionary of the settings with all colours of the scheme converted. -/
def SwitchSpec (g : Scheme) (dflt late : PDict) (sw : Switch) (out : Option PDict) : Prop :=
  (sw = .off → out = none) ∧ (sw ≠ .off → ∃ d', out = some d' ∧ IsDict d' ∧ ∀ k w, (k, w) ∈ d' ↔ ∃ v, SettingOf dflt late sw k v ∧ Converted g v w)

/-- **Specification.** All settings with a colour of the scheme name one that it has. -/
def KnownColors (g : Scheme) (dflt late : PDict) (sw : Switch) : Prop := ∀ k v, SettingOf dflt late sw k (.str v) → ¬ UnknownColor g v

/-- a user dictionary has no repeated keys -/
def Switch.WF : Switch → Prop
  | .dict u => IsDict u
  | _ => True

theorem Converted.unique {β : Type} {CS : Scheme} (hd : IsDict CS) {v w w' : PyVal β} (h : Converted CS v w) (h' : Converted CS v w') : w = w' := by
  cases v <;> cases w <;> cases w' <;> simp only [Converted] at h h'
  · rw [ColorOf.unique hd h h']
  · rw [← h, ← h']

theorem mem_of_forall₂ {g : Scheme} (hg : IsDict g) {d d' : PDict} (h : List.Forall₂ (fun p q => p.1 = q.1 ∧ Converted g p.2 q.2) d d') (k : String) (w : PyVal PlotVal) :
    (k, w) ∈ d' ↔ ∃ v, (k, v) ∈ d ∧ Converted g v w := by
  induction h with
  | nil => simp
  | @cons p q d d' hpq _ ih =>
    obtain ⟨k1, v1⟩ := p
    obtain ⟨k2, w2⟩ := q
    obtain ⟨rfl, hc⟩ := hpq
    simp only [List.mem_cons, Prod.mk.injEq, ih]
    constructor
    · rintro (⟨rfl, rfl⟩ | ⟨v, hv, hw⟩)
      · exact ⟨v1, Or.inl ⟨rfl, rfl⟩, hc⟩
      · exact ⟨v, Or.inr hv, hw⟩
    · rintro ⟨v, ⟨rfl, rfl⟩ | hv, hw⟩
      · exact Or.inl ⟨rfl, hw.unique hg hc⟩
      · exact Or.inr ⟨v, hv, hw⟩

theorem convert_spec {g : Scheme} (hg : IsDict g) {m : PDict} (hm : IsDict m) :
    ((∃ k v, (k, PyVal.str v) ∈ m ∧ UnknownColor g v) → (convertColorsInDict g m none).1 = .error .keyError) ∧
    ((¬ ∃ k v, (k, PyVal.str v) ∈ m ∧ UnknownColor g v) → (convertColorsInDict g m none).1 = .ok () ∧ IsDict (convertColorsInDict g m none).2 ∧
      ∀ k w, (k, w) ∈ (convertColorsInDict g m none).2 ↔ ∃ v, (k, v) ∈ m ∧ Converted g v w) := by
  obtain ⟨-, h2, h3⟩ := C56_dict g hg m none
  obtain ⟨h4, h5⟩ := h2 g rfl
  refine ⟨h4, fun h => ⟨(h5 h).1, ?_, mem_of_forall₂ hg (h5 h).2⟩⟩
  unfold IsDict; rw [h3]; exact hm

theorem applySwitch_spec {g : Scheme} (hg : IsDict g) {d late : PDict} (hd : IsDict d) (hl : IsDict late) (sw : Switch) (hsw : sw.WF) :
    (KnownColors g d late sw → ∃ r, applySwitch g d sw late = .ok r ∧ SwitchSpec g d late sw r) ∧
    (¬ KnownColors g d late sw → applySwitch g d sw late = .error .keyError) := by
  have core : ∀ (m : PDict), IsDict m → (∀ k v, (k, v) ∈ m ↔ SettingOf d late sw k v) → sw ≠ .off →
      ((KnownColors g d late sw → ∃ d', (match convertColorsInDict g m none with
          | (.error x, _) => (.error x : Except Err (Option PDict))
          | (.ok _, d') => .ok (some d')) = .ok (some d') ∧ SwitchSpec g d late sw (some d')) ∧
       (¬ KnownColors g d late sw → (match convertColorsInDict g m none with
          | (.error x, _) => (.error x : Except Err (Option PDict))
          | (.ok _, d') => .ok (some d')) = .error .keyError)) := by
    intro m hm hmem hoff
    obtain ⟨c1, c2⟩ := convert_spec hg hm
    have hk : (¬ ∃ k v, (k, PyVal.str v) ∈ m ∧ UnknownColor g v) ↔ KnownColors g d late sw := by
      unfold KnownColors
      push Not
      simp only [hmem]
    constructor
    · intro h
      obtain ⟨e1, e2, e3⟩ := c2 (hk.2 h)
      refine ⟨(convertColorsInDict g m none).2, ?_, fun h => absurd h hoff, fun _ => ⟨_, rfl, e2, fun k w => ?_⟩⟩
      · rcases hc : convertColorsInDict g m none with ⟨_ | _, d'⟩
        · rw [hc] at e1; simp at e1
        · rfl
      · rw [e3]; simp only [hmem]
    · intro h
      have := c1 (by by_contra hc; exact h (hk.1 hc))
      rcases hc : convertColorsInDict g m none with ⟨_ | _, d'⟩
      · rw [hc] at this; simp only at this; rw [this]
      · rw [hc] at this; simp at this
  cases sw with
  | off =>
    refine ⟨fun _ => ⟨none, rfl, fun _ => rfl, fun h => absurd rfl h⟩, fun h => absurd ?_ h⟩
    intro k v hv; exact hv.elim
  | on =>
    obtain ⟨c1, c2⟩ := core d hd (fun k v => Iff.rfl) (by simp)
    exact ⟨fun h => let ⟨d', e, s⟩ := c1 h; ⟨some d', e, s⟩, c2⟩
  | dict u =>
    obtain ⟨u1, u2⟩ := dictUpdate_spec u d hsw hd
    obtain ⟨w1, w2⟩ := dictUpdate_spec late _ hl u1
    obtain ⟨c1, c2⟩ := core _ w1 (fun k v => by rw [w2, u2]; rfl) (by simp)
    exact ⟨fun h => let ⟨d', e, s⟩ := c1 h; ⟨some d', e, s⟩, c2⟩

theorem conesDefault_dict (dc : Scheme) (b : Bool) : IsDict (conesDefault dc b) := by
  cases b <;> simp [conesDefault, IsDict]

theorem linksDefault_keys (dc : Scheme) (b : Bool) : (linksDefault dc b).map Prod.fst =
    ["linewidth", "linestyle", "markevery", "color", "marker", "markersize", "markeredgecolor", "markerfacecolor"] := by
  cases b <;> simp [linksDefault, dictUpdate, dictSet]

theorem linksDefault_dict (dc : Scheme) (b : Bool) : IsDict (linksDefault dc b) := by
  unfold IsDict; rw [linksDefault_keys]; decide

theorem eventsDefault_dict (dc : Scheme) : IsDict (eventsDefault dc) := by simp [eventsDefault, IsDict]
theorem labelsDefault_dict : IsDict labelsDefault := by simp [labelsDefault, IsDict]

/-- the entry set by `linkgapsize` -/
noncomputable def gapSetting (a : PlotArgs) : PDict := if 0 < a.linkgapsize then [("markersize", .other (.num a.linkgapsize))] else []

theorem gapSetting_dict (a : PlotArgs) : IsDict (gapSetting a) := by
  unfold gapSetting; split <;> simp [IsDict]

theorem nil_dict : IsDict ([] : PDict) := by simp [IsDict]

/-- all user dictionaries have no repeated keys -/
def PlotArgs.WF (a : PlotArgs) : Prop := a.pastcones.WF ∧ a.futurecones.WF ∧ a.links.WF ∧ a.events.WF ∧ a.labels.WF

/-- **Specification.** No setting names an unknown colour of the scheme. -/
def PlotArgs.Known (g dc : Scheme) (a : PlotArgs) : Prop :=
  KnownColors g (conesDefault dc (decide (2 < a.dims.length))) [] a.pastcones ∧ KnownColors g (conesDefault dc (decide (2 < a.dims.length))) [] a.futurecones ∧
  KnownColors g (linksDefault dc (decide (0 < a.linkgapsize))) (gapSetting a) a.links ∧ KnownColors g (eventsDefault dc) [] a.events ∧
  KnownColors g labelsDefault [] a.labels

/-- **C79, errors.** `plot_parameters` raises ValueError if not 2 or 3 dimensions are given; otherwise it fails exactly if the axis limits cannot be computed or (KeyError) a setting names an unknown colour of the scheme. -/
theorem C79_errors (g dc : Scheme) (hg : IsDict g) (a : PlotArgs) (ha : a.WF) :
    (¬ (a.dims.length = 2 ∨ a.dims.length = 3) → plotParameters g dc a = .error .valueError) ∧
    ((a.dims.length = 2 ∨ a.dims.length = 3) → (∀ x, plotAxislim a = .error x → plotParameters g dc a = .error x) ∧
      (∀ l, plotAxislim a = .ok l → ((∃ p, plotParameters g dc a = .ok p) ↔ a.Known g dc) ∧ (¬ a.Known g dc → plotParameters g dc a = .error .keyError))) := by
  refine ⟨fun h => ?_, fun h => ⟨fun x hx => ?_, fun l hl => ?_⟩⟩
  · unfold plotParameters; rw [if_pos (by omega)]
  · unfold plotParameters; rw [if_neg (by omega), hx]; rfl
  · obtain ⟨w1, w2, w3, w4, w5⟩ := ha
    obtain ⟨p1, q1⟩ := applySwitch_spec hg (conesDefault_dict dc (decide (2 < a.dims.length))) nil_dict a.pastcones w1
    obtain ⟨p2, q2⟩ := applySwitch_spec hg (conesDefault_dict dc (decide (2 < a.dims.length))) nil_dict a.futurecones w2
    obtain ⟨p3, q3⟩ := applySwitch_spec hg (linksDefault_dict dc (decide (0 < a.linkgapsize))) (gapSetting_dict a) a.links w3
    obtain ⟨p4, q4⟩ := applySwitch_spec hg (eventsDefault_dict dc) nil_dict a.events w4
    obtain ⟨p5, q5⟩ := applySwitch_spec hg labelsDefault_dict nil_dict a.labels w5
    have hgap : (if (test (0 < a.linkgapsize)) = true then [("markersize", PyVal.other (PlotVal.num a.linkgapsize))] else []) = gapSetting a := by
      unfold gapSetting; simp [test]
    have hno : ¬ a.Known g dc → plotParameters g dc a = .error .keyError := by
      intro hk
      unfold plotParameters
      rw [if_neg (by omega), hl]
      simp only [hgap, test]
      simp only [bind, Except.bind]
      by_cases k1 : KnownColors g (conesDefault dc (decide (2 < a.dims.length))) [] a.pastcones
      · obtain ⟨r1, e1, -⟩ := p1 k1
        simp only [e1]
        by_cases k2 : KnownColors g (conesDefault dc (decide (2 < a.dims.length))) [] a.futurecones
        · obtain ⟨r2, e2, -⟩ := p2 k2
          simp only [e2]
          by_cases k3 : KnownColors g (linksDefault dc (decide (0 < a.linkgapsize))) (gapSetting a) a.links
          · obtain ⟨r3, e3, -⟩ := p3 k3
            simp only [e3]
            by_cases k4 : KnownColors g (eventsDefault dc) [] a.events
            · obtain ⟨r4, e4, -⟩ := p4 k4
              simp only [e4]
              have k5 : ¬ KnownColors g labelsDefault [] a.labels := fun k5 => hk ⟨k1, k2, k3, k4, k5⟩
              simp only [q5 k5]
            · simp only [q4 k4]
          · simp only [q3 k3]
        · simp only [q2 k2]
      · simp only [q1 k1]
    refine ⟨⟨fun ⟨p, hp⟩ => ?_, fun hk => ?_⟩, hno⟩
    · by_contra hk
      rw [hno hk] at hp
      cases hp
    · obtain ⟨k1, k2, k3, k4, k5⟩ := hk
      obtain ⟨r1, e1, -⟩ := p1 k1
      obtain ⟨r2, e2, -⟩ := p2 k2
      obtain ⟨r3, e3, -⟩ := p3 k3
      obtain ⟨r4, e4, -⟩ := p4 k4
      obtain ⟨r5, e5, -⟩ := p5 k5
      unfold plotParameters
      rw [if_neg (by omega), hl]
      simp only [hgap, test]
      simp only [bind, Except.bind, e1, e2, e3, e4, e5, pure, Except.pure]
      exact ⟨_, rfl⟩

/-- **C79, result.** If `plot_parameters` returns: it plots 2 or 3 dimensions, the five groups of artists have the settings of the user over the defaults with all colours of the scheme converted (and do not exist if switched off), the time axis is the position of
the first 0 in `dims` or -1, and the other parameters are those given. -/
theorem C79_parameters (g dc : Scheme) (hg : IsDict g) (a : PlotArgs) (ha : a.WF) (p : PlotParams) (hp : plotParameters g dc a = .ok p) :
    (a.dims.length = 2 ∨ a.dims.length = 3) ∧ p.dims = a.dims ∧ (p.is3d = true ↔ a.dims.length = 3) ∧ plotAxislim a = .ok p.axislim ∧
    p.timedepth = a.timedepth ∧ p.timefade = a.timefade ∧ p.conetimefade = a.conetimefade ∧ p.conetimedepth = a.conetimedepth ∧
    SwitchSpec g (conesDefault dc p.is3d) [] a.pastcones p.pastcones ∧ SwitchSpec g (conesDefault dc p.is3d) [] a.futurecones p.futurecones ∧
    SwitchSpec g (linksDefault dc (decide (0 < a.linkgapsize))) (gapSetting a) a.links p.links ∧
    SwitchSpec g (eventsDefault dc) [] a.events p.events ∧ SwitchSpec g labelsDefault [] a.labels p.labels ∧
    ((∀ d ∈ a.dims, d ≠ 0) → p.timeaxis = -1) ∧
    (0 ∈ a.dims → ∃ i : ℕ, p.timeaxis = i ∧ a.dims[i]? = some 0 ∧ ∀ j < i, a.dims[j]? ≠ some 0) := by
  have hlen : a.dims.length = 2 ∨ a.dims.length = 3 := by
    by_contra hc
    rw [(C79_errors g dc hg a ha).1 hc] at hp; cases hp
  obtain ⟨hx, hy⟩ := (C79_errors g dc hg a ha).2 hlen
  rcases hl : plotAxislim a with x | l
  · rw [hx x hl] at hp; cases hp
  have hk := (hy l hl).1.1 ⟨p, hp⟩
  obtain ⟨w1, w2, w3, w4, w5⟩ := ha
  obtain ⟨k1, k2, k3, k4, k5⟩ := hk
  obtain ⟨r1, e1, s1⟩ := (applySwitch_spec hg (conesDefault_dict dc (decide (2 < a.dims.length))) nil_dict a.pastcones w1).1 k1
  obtain ⟨r2, e2, s2⟩ := (applySwitch_spec hg (conesDefault_dict dc (decide (2 < a.dims.length))) nil_dict a.futurecones w2).1 k2
  obtain ⟨r3, e3, s3⟩ := (applySwitch_spec hg (linksDefault_dict dc (decide (0 < a.linkgapsize))) (gapSetting_dict a) a.links w3).1 k3
  obtain ⟨r4, e4, s4⟩ := (applySwitch_spec hg (eventsDefault_dict dc) nil_dict a.events w4).1 k4
  obtain ⟨r5, e5, s5⟩ := (applySwitch_spec hg labelsDefault_dict nil_dict a.labels w5).1 k5
  have hgap : (if (test (0 < a.linkgapsize)) = true then [("markersize", PyVal.other (PlotVal.num a.linkgapsize))] else []) = gapSetting a := by
    unfold gapSetting; simp [test]
  unfold plotParameters at hp
  rw [if_neg (by omega), hl] at hp
  simp only [hgap, test] at hp
  simp only [bind, Except.bind, e1, e2, e3, e4, e5, pure, Except.pure, Except.ok.injEq] at hp
  subst hp
  refine ⟨hlen, rfl, ?_, rfl, rfl, rfl, rfl, rfl, s1, s2, s3, s4, s5, ?_, ?_⟩
  · simp only [decide_eq_true_eq]; omega
  · intro h0
    simp only [timeAxis]
    rw [List.findIdx?_eq_none_iff.2 (fun d hd => by simpa using h0 d hd)]
  · intro h0
    simp only [timeAxis]
    rcases hf : List.findIdx? (fun d => decide (d = 0)) a.dims with _ | i
    · rw [List.findIdx?_eq_none_iff] at hf
      have := hf 0 h0
      simp at this
    · rw [List.findIdx?_eq_some_iff_getElem] at hf
      obtain ⟨hi, h1, h2⟩ := hf
      refine ⟨i, rfl, ?_, ?_⟩
      · rw [List.getElem?_eq_getElem hi]; simpa using h1
      · intro j hj
        rw [List.getElem?_eq_getElem (by omega)]
        have := h2 j hj
        simpa using this

end Causets
