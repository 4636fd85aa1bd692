import Verif.Model.Shapes
import Verif.Model.Colors
import Verif.Model.Event
import Mathlib.Analysis.SpecialFunctions.Exp

/-!
# Plotting (causetplotting.py)

matplotlib is not modelled: an artist is the record of the data passed to matplotlib.  Floats are real numbers.  The
attribute `Position` or `Coordinates` of an event is given by a function `co` to points (an event without the attribute raises AttributeError, which is not
modelled), the entries of `dims` are indices of these coordinates.  Keyword arguments that are no plot parameters are ignored by the code.
If a call can raise several errors, the model may report another one than the code, which sets up the dynamic mode before it draws cones.
-/

namespace Causets

/-! ## Fading (causetplotting.py:293-323) -/

/-- `np.heaviside(x, 1.0)` -/
noncomputable def heaviside1 (x : ℝ) : ℝ := if x < 0 then 0 else 1

/-- `dynamic_parameter`, causetplotting.py:293-323; `none` is the value `NotImplemented` -/
noncomputable def dynamicParameter (function : String) (dim : ℕ) (timedepth alphaMax : ℝ) : Option (ℝ → ℝ) :=
  let timefade : ℝ := if timedepth = 0 then -10 ^ 10 else -1 / timedepth
  let sgn : ℝ := (SignType.sign timedepth : ℝ)
  let dimpower := dim - 1
  if function = "linear" then some (fun value => heaviside1 (sgn * value) * alphaMax * (timefade * value + 1))
  else if function = "exponential" then some (fun value => heaviside1 (sgn * value) * alphaMax * Real.exp (timefade * value))
  else if function = "intensity" then some (fun value => heaviside1 (sgn * value) * alphaMax / (max value 0 + 1) ^ dimpower)
  else none

/-! ## Plot parameters (causetplotting.py:42-290) -/

/-- values of plot parameters that are not strings -/
inductive PlotVal
  | num (x : ℝ)
  | nums (l : List ℝ)

/-- a dictionary of matplotlib parameters -/
abbrev PDict := List (String × PyVal PlotVal)

/-- the arguments `links`, `events`, `labels`, `pastcones`, `futurecones`: False, True or a dictionary -/
inductive Switch
  | off
  | on
  | dict (d : PDict)

/-- the argument `axislim` -/
inductive AxisLim
  | unset
  | str (s : String)
  | lims (d : List (String × (ℝ × ℝ)))

/-- the keyword arguments of `plot_parameters` and `Plotter` (`aspect` is not modelled) -/
structure PlotArgs where
  dims : List ℤ := [1, 0]
  axislim : AxisLim := .unset
  shape : Option CoordinateShape := none
  conetimefade : String := "intensity"
  conetimedepth : ℝ := 0
  timedepth : Option ℝ := none
  timefade : String := "linear"
  pastcones : Switch := .off
  futurecones : Switch := .off
  linkgapsize : ℝ := 0
  links : Switch := .on
  events : Switch := .on
  labels : Switch := .on

/-- the returned dictionary `p`; `none`: no such key.  (`timefade` is a key only if `timedepth` is.) -/
structure PlotParams where
  dims : List ℤ
  is3d : Bool
  axislim : AxisLim
  timeaxis : ℤ
  conetimefade : String
  conetimedepth : ℝ
  timedepth : Option ℝ
  timefade : String
  pastcones : Option PDict
  futurecones : Option PDict
  linkgaps : Bool
  links : Option PDict
  events : Option PDict
  labels : Option PDict

/-- `default_colors[key]` -/
def defaultColor (dc : Scheme) (key : String) : PyVal PlotVal := .str ((dc.lookup key).getD "")

/-- `p['…'] = colors.convertColorsInDict(d)` for the switch `sw` with the defaults `d`; `late` are the entries set after those of the user,
causetplotting.py:209-215, 229-235, 253-261, 271-277, 283-289 -/
def applySwitch (g : Scheme) (d : PDict) (sw : Switch) (late : PDict := []) : Except Err (Option PDict) :=
  let convert (d : PDict) : Except Err (Option PDict) := match convertColorsInDict g d none with
    | (.error x, _) => .error x
    | (.ok _, d') => .ok (some d')
  match sw with
  | .off => .ok none
  | .on => convert d
  | .dict u => convert (dictUpdate (dictUpdate d u) late)

/-- default parameters of causal cones, causetplotting.py:199-207, 219-227 -/
noncomputable def conesDefault (dc : Scheme) (is3d : Bool) : PDict :=
  if is3d then [("edgecolor", .str "none"), ("color", defaultColor dc "conesface"), ("alpha", .other (.num (1 / 10)))]
  else [("edgecolor", defaultColor dc "conesedge"), ("facecolor", .str "none"), ("alpha", .other (.num (1 / 10)))]

/-- default parameters of links, causetplotting.py:238-252 -/
noncomputable def linksDefault (dc : Scheme) (linkgaps : Bool) : PDict :=
  let d : PDict := [("linewidth", .other (.num 2)), ("linestyle", .str "-"), ("markevery", .other (.nums [])), ("color", defaultColor dc "links"),
    ("marker", .str "o"), ("markersize", .other (.num 5)), ("markeredgecolor", defaultColor dc "linksedge"),
    ("markerfacecolor", defaultColor dc "linksface")]
  if linkgaps then dictUpdate d [("markeredgecolor", .other (.nums [0, 0, 0, 0])), ("markerfacecolor", .other (.nums [0, 0, 0, 0]))] else d

/-- default parameters of events, causetplotting.py:264-269 -/
noncomputable def eventsDefault (dc : Scheme) : PDict :=
  [("linewidth", .other (.num 2)), ("linestyle", .str ""), ("marker", .str "o"), ("markersize", .other (.num 7)),
   ("markeredgecolor", defaultColor dc "eventsedge"), ("markerfacecolor", defaultColor dc "eventsface")]

/-- default parameters of labels, causetplotting.py:280-281 -/
def labelsDefault : PDict := [("verticalalignment", .str "top"), ("horizontalalignment", .str "right")]

/-- `center[i]`, causetplotting.py:172-174 -/
noncomputable def centerAt (S : CoordinateShape) (i : ℤ) : Except Err ℝ := match npIndex S.center.length i with
  | .error x => .error x
  | .ok j => .ok (S.center.getD j 0)

/-- the axis limits from a shape, causetplotting.py:168-182 -/
noncomputable def axisFromShape (S : CoordinateShape) (dims : List ℤ) : Except Err AxisLim := match dims with
  | [x, y] => match S.limits x, S.limits y with
    | .ok lx, .ok ly => .ok (.lims [("xlim", lx), ("ylim", ly)])
    | .error e, _ => .error e
    | _, .error e => .error e
  | [x, y, z] => match S.maxEdgeHalf dims, centerAt S x, centerAt S y, centerAt S z with
    | .ok w, .ok cx, .ok cy, .ok cz => .ok (.lims [("xlim", (cx - w, cx + w)), ("ylim", (cy - w, cy + w)), ("zlim", (cz - w, cz + w))])
    | .error e, _, _, _ => .error e
    | _, .error e, _, _ => .error e
    | _, _, .error e, _ => .error e
    | _, _, _, .error e => .error e
  | _ => .error .valueError

/-- `p['axislim']`, causetplotting.py:161-182 -/
noncomputable def plotAxislim (a : PlotArgs) : Except Err AxisLim :=
  let fromShape : Bool := match a.axislim with
    | .unset => true
    | .str s => decide (s = "shape")
    | .lims _ => false
  match fromShape, a.shape with
  | true, some S => axisFromShape S a.dims
  | _, _ => .ok a.axislim

/-- `p['dims'].index(0)`, -1 if there is none, causetplotting.py:186-189 -/
def timeAxis (dims : List ℤ) : ℤ := match dims.findIdx? (fun d => decide (d = 0)) with
  | some i => i
  | none => -1

/-- `plot_parameters`, causetplotting.py:42-290; `g` is the global colour scheme, `dc` the default colours -/
noncomputable def plotParameters (g dc : Scheme) (a : PlotArgs) : Except Err PlotParams :=
  if a.dims.length < 2 ∨ 3 < a.dims.length then .error .valueError
  else do
    let is3d : Bool := decide (2 < a.dims.length)
    let axislim ← plotAxislim a
    let pastcones ← applySwitch g (conesDefault dc is3d) a.pastcones
    let futurecones ← applySwitch g (conesDefault dc is3d) a.futurecones
    let linkgaps : Bool := test (0 < a.linkgapsize)
    let links ← applySwitch g (linksDefault dc linkgaps) a.links (if linkgaps then [("markersize", .other (.num a.linkgapsize))] else [])
    let events ← applySwitch g (eventsDefault dc) a.events
    let labels ← applySwitch g labelsDefault a.labels
    pure (⟨a.dims, is3d, axislim, timeAxis a.dims, a.conetimefade, a.conetimedepth, a.timedepth, a.timefade, pastcones, futurecones,
      linkgaps, links, events, labels⟩ : PlotParams)

/-! ## The plotting function (causetplotting.py:326-660) -/

/-- the data of a link passed to `ax.plot`: the points (along the axes of the plot), `alpha` and `linewidth` if set by the loop, `markevery` -/
structure LinkArt where
  pts : List (List ℝ)
  alpha : Option ℝ
  width : Option ℝ
  markevery : List ℕ

/-- the data of an event or label -/
structure EventArt where
  event : EId
  pt : List ℝ
  alpha : Option ℝ

/-- `[c[_x], c[_y]]` or `[c[_x], c[_y], c[_z]]` -/
def axesOf (dims : List ℤ) (c : Point) : List ℝ := dims.map (fun d => c d.toNat)

/-- the geometry of a link in dynamic mode, causetplotting.py:486-515: start point, end point, alpha, linewidth, markevery (`none`: not drawn).
`fe`, `fl` are `dyn_events`, `dyn_links`; `ci`, `cj` the coordinates of the first and second event. -/
noncomputable def dynamicLink (fe fl : ℝ → ℝ) (depth time : ℝ) (ci cj : Point) : Option (Point × Point × ℝ × ℝ × List ℕ) :=
  let iDist := ci 0 - time
  let jDist := cj 0 - time
  let iFade := fe iDist
  let jFade := fe jDist
  let finish (cOut cIn : Point) (outDist tau linkAlpha : ℝ) (m : List ℕ) : Option (Point × Point × ℝ × ℝ × List ℕ) :=
    let target : Point := fun k => (1 - tau) * cOut k + tau * cIn k
    if test (fl outDist > 0) then some (cOut, target, linkAlpha, fl outDist, m) else none
  if test (iFade > 0) && test (jFade > 0) then
    if test (|iDist| > |jDist|) then finish ci cj iDist 1 iFade []
    else finish cj ci jDist 1 jFade []
  else if (test (iFade > 0) || test (jFade > 0)) && test (SignType.sign iDist ≠ SignType.sign jDist) then
    if test (depth * iDist > 0) then finish ci cj iDist |iDist / (iDist - jDist)| iFade [1]
    else finish cj ci jDist |jDist / (iDist - jDist)| jFade [1]
  else none

/-- a link artist in dynamic mode, causetplotting.py:516-533 -/
noncomputable def dynamicArt (fe fl : ℝ → ℝ) (depth time : ℝ) (dims : List ℤ) (co : EId → Point) (a b : EId) : Option LinkArt :=
  (dynamicLink fe fl depth time (co a) (co b)).map (fun r => ⟨[axesOf dims r.1, axesOf dims r.2.1], some r.2.2.1, some r.2.2.2.1, r.2.2.2.2⟩)

/-- `c_a[k] <= c_e[k] <= c_b[k] or c_a[k] >= c_e[k] >= c_b[k]`, causetplotting.py:570-575, 612-615 -/
noncomputable def isBetween (a e b : ℝ) : Bool := (test (a ≤ e) && test (e ≤ b)) || (test (a ≥ e) && test (e ≥ b))

/-- `area`, causetplotting.py:576-587 (3D) and 616-619 (2D), of points given along the axes of the plot -/
noncomputable def linkArea (is3d : Bool) (a e b : List ℝ) : ℝ :=
  let dae (k : ℕ) := e.getD k 0 - a.getD k 0
  let deb (k : ℕ) := b.getD k 0 - e.getD k 0
  if is3d then Real.sqrt ((dae 1 * deb 2 - dae 2 * deb 1) ^ 2 + (dae 2 * deb 0 - dae 0 * deb 2) ^ 2 + (dae 0 * deb 1 - dae 1 * deb 0) ^ 2)
  else |dae 0 * deb 1 - dae 1 * deb 0|

/-- is the event at `e` put on the link from `a` to `b` (2 or 3 dimensions), causetplotting.py:570-588, 612-620 -/
noncomputable def isOnLink (eps : ℝ) (is3d : Bool) (a e b : List ℝ) : Bool :=
  isBetween (a.getD 0 0) (e.getD 0 0) (b.getD 0 0) && isBetween (a.getD 1 0) (e.getD 1 0) (b.getD 1 0) &&
    (!is3d || isBetween (a.getD 2 0) (e.getD 2 0) (b.getD 2 0)) && test (linkArea is3d a e b < eps)

/-- the order of `np.lexsort((X, Y))` and `np.lexsort((X, Y, Z))`: the last key is the primary one -/
noncomputable def lexLe (is3d : Bool) (p q : List ℝ) : Bool :=
  let x := test (p.getD 0 0 ≤ q.getD 0 0)
  let y := test (p.getD 1 0 < q.getD 1 0) || (test (p.getD 1 0 = q.getD 1 0) && x)
  if is3d then test (p.getD 2 0 < q.getD 2 0) || (test (p.getD 2 0 = q.getD 2 0) && y) else y

/-- the points of a link in static mode, causetplotting.py:559-604, 607-632 (`'linkgaps' in plotting` is always true; lexsort is stable, as `List.mergeSort`) -/
noncomputable def staticPoints (eps : ℝ) (is3d : Bool) (dims : List ℤ) (co : EId → Point) (events : List EId) (a b : EId) : List (List ℝ) :=
  let ca := axesOf dims (co a)
  let cb := axesOf dims (co b)
  let inner := (events.filter (fun e => decide (e ≠ a) && decide (e ≠ b) && isOnLink eps is3d ca (axesOf dims (co e)) cb)).map (fun e => axesOf dims (co e))
  let X := [ca] ++ inner ++ [cb]
  if 3 < X.length then X.mergeSort (lexLe is3d) else X

/-- a link artist in static mode -/
noncomputable def staticArt (eps : ℝ) (is3d : Bool) (dims : List ℤ) (co : EId → Point) (events : List EId) (a b : EId) : Option LinkArt :=
  let X := staticPoints eps is3d dims co events a b
  some ⟨X, none, none, (List.range (X.length - 2)).map (· + 1)⟩

/-- the pairs `(events[i], events[j])` with `i < j`, in the order of the loops, causetplotting.py:473-482, 548-555 -/
def eventPairs : List EId → List (EId × EId)
  | [] => []
  | a :: t => t.map (fun b => (a, b)) ++ eventPairs t

/-- the loop over linked pairs: `l` is the number of linked pairs so far, `H` is `_hlnk`, causetplotting.py:468, 482-533, 548-632 -/
def linkLoop (draw : EId → EId → Option LinkArt) :
    List (EId × EId) → ℕ → List (Option LinkArt) → StateM Heap (Except Err (List (Option LinkArt)))
  | [], _, H => pure (.ok H)
  | (a, b) :: ps, l, H => do
    if ← isLinkedTo a b then
      match draw a b with
      | none => linkLoop draw ps (l + 1) H
      | some art => if l < H.length then linkLoop draw ps (l + 1) (H.set l (some art)) else pure (.error .indexError)
    else linkLoop draw ps l H

/-- one cone, spacetimes.py:187-196, 411-419: `fade` is `dynamicAlpha` (`none`: NotImplemented, so that the call raises TypeError), `sgn` is `timesign`, `geom`
computes the patch or surfaces of the spacetime (`none`: None) -/
noncomputable def coneArt {γ : Type} (fade : Option (ℝ → ℝ)) (sgn : ℝ) (geom : Point → ℝ → Except Err (Option γ)) (c : Point) (time : ℝ) :
    Except Err (Option (ℝ × γ)) :=
  let r := sgn * (time - c 0)
  if r ≤ 0 then .ok none
  else match fade with
    | none => .error .typeError
    | some f =>
      if f r ≤ 0 then .ok none
      else match geom c time with
        | .error x => .error x
        | .ok none => .ok none
        | .ok (some p) => .ok (some (f r, p))

/-- `_hpcn` / `_hfcn`: the cones that are not None, causetplotting.py:452-466 (the code alternates between past and future cones; the loops are separate here) -/
noncomputable def coneLoop {γ : Type} (fade : Option (ℝ → ℝ)) (sgn : ℝ) (geom : Point → ℝ → Except Err (Option γ)) (co : EId → Point) (time : ℝ) :
    List EId → Except Err (List (ℝ × γ))
  | [] => .ok []
  | a :: t => do
    let c ← coneArt fade sgn geom (co a) time
    let r ← coneLoop fade sgn geom co time t
    pure (match c with
      | none => r
      | some x => x :: r)

/-- the first argument of `Plotter`: an event, a list of events or an `EmbeddedCauset` -/
inductive PlotTarget
  | event (e : EId)
  | list (l : List EId)
  | causet (C : Finset EId)

/-- `events`, causetplotting.py:360-369 (`kwargs.update` has no effect there: the parameters have been computed before) -/
def targetEvents (it : Iter) : PlotTarget → List EId
  | .event e => [e]
  | .list l => l
  | .causet C => it.ord [361] C

/-- `d[key]` for a number (other types of values are not modelled and read as the default) -/
def dictNum (d : PDict) (key : String) (default : ℝ) : ℝ := match d.lookup key with
  | some (.other (.num x)) => x
  | _ => default

/-- the dictionary `_h` returned by the plotting function and the axis limits that it sets -/
structure PlotOut (γ : Type) where
  pastcones : Option (List (ℝ × γ))
  futurecones : Option (List (ℝ × γ))
  links : Option (List (Option LinkArt))
  events : Option (List (Option EventArt))
  labels : Option (List (Option EventArt))
  axis : List (String × (ℝ × ℝ))

/-- `ax.set(…)`, causetplotting.py:652-659: the limits that are set -/
def setAxis (is3d : Bool) : AxisLim → Except Err (List (String × (ℝ × ℝ)))
  | .unset => .ok []
  | .str _ => .error .typeError
  | .lims d => match d.lookup "xlim", d.lookup "ylim" with
    | some x, some y =>
      if is3d then match d.lookup "zlim" with
        | some z => .ok [("xlim", x), ("ylim", y), ("zlim", z)]
        | none => .ok [("xlim", x), ("ylim", y)]
      else .ok [("xlim", x), ("ylim", y)]
    | _, _ => .ok []

/-- the cones of one sign: set up, causetplotting.py:400-425, and drawn, causetplotting.py:452-466 -/
noncomputable def conePart {γ : Type} (p : PlotParams) (cones : Option PDict) (sgn : ℝ) (geom : Point → ℝ → Except Err (Option γ))
    (co : EId → Point) (time : ℝ) (events : List EId) : Except Err (Option (List (ℝ × γ))) := match cones with
  | none => .ok none
  | some d =>
    if p.conetimefade = "" then .error .nameError
    else match coneLoop (dynamicParameter p.conetimefade (if p.is3d then 3 else 2) |p.conetimedepth| (dictNum d "alpha" 1)) sgn geom co time events with
      | .error x => .error x
      | .ok l => .ok (some l)

/-- the drawing of links, events and labels: causetplotting.py:427-439, 467-650.  (In dynamic mode the code draws event `i` after the links of `i`; here all
links come first.) -/
noncomputable def drawPart (eps : ℝ) (p : PlotParams) (co : EId → Point) (time : ℝ) (events : List EId) (linkCount : ℕ) :
    StateM Heap (Except Err (List (Option LinkArt) × List (Option EventArt) × List (Option EventArt))) :=
  let H0 : List (Option LinkArt) := List.replicate linkCount none
  match p.timedepth with
  | some depth =>
    match p.links with
    | none => pure (.error .keyError)
    | some ld =>
      let dim := if p.is3d then 3 else 2
      match dynamicParameter p.timefade dim depth (dictNum (p.events.getD []) "alpha" 1), dynamicParameter p.timefade dim depth (dictNum ld "linewidth" 0) with
      | some fe, some fl => do
        match ← linkLoop (dynamicArt fe fl depth time p.dims co) (eventPairs events) 0 H0 with
        | .error x => pure (.error x)
        | .ok H =>
          let art (a : EId) : Option EventArt := if fe (co a 0 - time) ≤ 0 then none else some ⟨a, axesOf p.dims (co a), some (fe (co a 0 - time))⟩
          let lab (a : EId) : Option EventArt := if fe (co a 0 - time) ≤ 0 then none else some ⟨a, axesOf p.dims (co a), none⟩
          pure (.ok (H, events.map (fun a => if p.events.isSome then art a else none), events.map (fun a => if p.labels.isSome then lab a else none)))
      | _, _ => if events = [] then pure (.ok (H0, [], [])) else pure (.error .typeError)
  | none => do
    let r ← (if p.links.isSome then linkLoop (staticArt eps p.is3d p.dims co events) (eventPairs events) 0 H0 else pure (.ok H0))
    match r with
    | .error x => pure (.error x)
    | .ok H =>
      let art (a : EId) : Option EventArt := some ⟨a, axesOf p.dims (co a), none⟩
      pure (.ok (H, events.map (fun a => if p.events.isSome then art a else none), events.map (fun a => if p.labels.isSome then art a else none)))

/-- `Plotter(E, ax, spacetime, **kwargs)(time)`, causetplotting.py:326-660 (the set-up and one call of the plotting function).  `geomP`, `geomF` compute the
past and future cones. -/
noncomputable def plotter {γ : Type} (it : Iter) (eps : ℝ) (g dc : Scheme) (geomP geomF : Point → ℝ → Except Err (Option γ)) (co : EId → Point)
    (E : PlotTarget) (a : PlotArgs) (time0 time1 : ℝ) : StateM Heap (Except Err (PlotOut γ)) :=
  match plotParameters g dc a with
  | .error x => pure (.error x)
  | .ok p => do
    let events := targetEvents it E
    let linkCount ← (if p.links.isSome then linkCountOf it events.toFinset else pure 0)
    match conePart p p.pastcones (-1) geomP co time0 events, conePart p p.futurecones 1 geomF co time1 events with
    | .ok pc, .ok fc =>
      match ← drawPart eps p co time0 events linkCount with
      | .error x => pure (.error x)
      | .ok (H, V, L) =>
        match setAxis p.is3d p.axislim with
        | .error x => pure (.error x)
        | .ok ax => pure (.ok ⟨pc, fc, p.links.map (fun _ => H), p.events.map (fun _ => V), p.labels.map (fun _ => L), ax⟩)
    | .error x, _ => pure (.error x)
    | _, .error x => pure (.error x)

end Causets
