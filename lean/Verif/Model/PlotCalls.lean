import Verif.Model.Plotting

/-!
# The plotting function returned by `Plotter`, called repeatedly (causetplotting.py:326-683, spacetimes.py:187-196, 411-419)

`Model/Plotting.lean` models `Plotter(…)(time)` as one call.  Here the object returned by `Plotter` is modelled: it keeps the list of events, the number of links counted
at the set-up, the fading functions, the dictionaries `plotting['links']`, … that every call changes (`update`) before it passes them to matplotlib, and the dictionary
`_h` that it returns.  An artist is recorded together with the keyword arguments that it is created with.  As in `Model/Plotting.lean`, the loops over past cones, future
cones, links, events and labels are separate (they use different dictionaries and different lists), and `aspect` is not modelled.
-/

namespace Causets

/-- the argument `time` of the plotting function: a float, an int, a list or vector of floats -/
inductive CallTime
  | float (t : ℝ)
  | int (n : ℤ)
  | list (ts : List ℝ)

/-- `time[0]` after `if isinstance(time, float): time = [time, time]`, causetplotting.py:448-449 (an int is no float and cannot be indexed) -/
def CallTime.first : CallTime → Except Err ℝ
  | .float t => .ok t
  | .int _ => .error .typeError
  | .list [] => .error .indexError
  | .list (t :: _) => .ok t

/-- `time[-1]` -/
def CallTime.last : CallTime → Except Err ℝ
  | .float t => .ok t
  | .int _ => .error .typeError
  | .list ts => match ts.getLast? with
    | none => .error .indexError
    | some t => .ok t

/-- the artists of one call, each with the keyword arguments it is created with -/
structure StyledOut (γ : Type) where
  pastcones : Option (List (γ × PDict))
  futurecones : Option (List (γ × PDict))
  links : Option (List (Option (LinkArt × PDict)))
  events : Option (List (Option (EventArt × PDict)))
  labels : Option (List (Option (EventArt × PDict)))
  axis : List (String × (ℝ × ℝ))

/-- the variables of the function returned by `Plotter`, causetplotting.py:351-439; `plotting` is the dictionary of that name (its dictionaries are changed by the
calls), `handles` the dictionary `_h` (`none`: still empty) -/
structure PlotterObj (γ : Type) where
  plotting : PlotParams
  events : List EId
  linkCount : ℕ
  pastFade : Option (ℝ → ℝ)
  futureFade : Option (ℝ → ℝ)
  dynEvents : Option (ℝ → ℝ)
  dynLinks : Option (ℝ → ℝ)
  handles : Option (StyledOut γ)

/-- the fading function of the cones of one sign, causetplotting.py:400-425 (without cones it is not used) -/
noncomputable def coneFade (p : PlotParams) : Option PDict → Except Err (Option (ℝ → ℝ))
  | none => .ok none
  | some d =>
    if p.conetimefade = "" then .error .nameError
    else .ok (dynamicParameter p.conetimefade (if p.is3d then 3 else 2) |p.conetimedepth| (dictNum d "alpha" 1))

/-- `Plotter(E, ax, spacetime, **kwargs)`, causetplotting.py:351-439: the set-up -/
noncomputable def plotterSetup {γ : Type} (it : Iter) (g dc : Scheme) (E : PlotTarget) (a : PlotArgs) : StateM Heap (Except Err (PlotterObj γ)) :=
  match plotParameters g dc a with
  | .error x => pure (.error x)
  | .ok p => do
    let events := targetEvents it E
    let linkCount ← (if p.links.isSome then linkCountOf it events.toFinset else pure 0)
    match coneFade p p.pastcones, coneFade p p.futurecones with
    | .ok fp, .ok ff =>
      match p.timedepth, p.links with
      | none, _ => pure (.ok ⟨p, events, linkCount, fp, ff, none, none, none⟩)
      | some _, none => pure (.error .keyError)
      | some depth, some ld =>
        let dim := if p.is3d then 3 else 2
        pure (.ok ⟨p, events, linkCount, fp, ff, dynamicParameter p.timefade dim depth (dictNum (p.events.getD []) "alpha" 1),
          dynamicParameter p.timefade dim depth (dictNum ld "linewidth" 0), none⟩)
    | .error x, _ => pure (.error x)
    | _, .error x => pure (.error x)

/-- the cones of one sign of all events, causetplotting.py:452-466 with spacetimes.py:187-196, 411-419; `d` is `plotting_params`, changed before the geometry is
computed; result: the cones or the error, and the dictionary afterwards -/
noncomputable def coneCall {γ : Type} (fade : Option (ℝ → ℝ)) (sgn : ℝ) (geom : Point → ℝ → Except Err (Option γ)) (co : EId → Point) (time : Except Err ℝ) :
    List EId → PDict → Except Err (List (γ × PDict)) × PDict
  | [], d => (.ok [], d)
  | e :: es, d => match time with
    | .error x => (.error x, d)
    | .ok t =>
      if sgn * (t - co e 0) ≤ 0 then coneCall fade sgn geom co time es d
      else match fade with
        | none => (.error .typeError, d)
        | some f =>
          if f (sgn * (t - co e 0)) ≤ 0 then coneCall fade sgn geom co time es d
          else
            let d1 := dictUpdate d [("alpha", .other (.num (f (sgn * (t - co e 0)))))]
            match geom (co e) t with
            | .error x => (.error x, d1)
            | .ok none => coneCall fade sgn geom co time es d1
            | .ok (some y) => match coneCall fade sgn geom co time es d1 with
              | (.error x, d2) => (.error x, d2)
              | (.ok l, d2) => (.ok ((y, d1) :: l), d2)

/-- the loop over linked pairs, causetplotting.py:468, 482-533, 548-632: `upd` are the entries of `plotting_links.update(…)` for an artist (517-519, 601-602, 630-631) -/
def linkCall (draw : EId → EId → Option LinkArt) (upd : LinkArt → PDict) :
    List (EId × EId) → ℕ → List (Option (LinkArt × PDict)) → PDict → Heap → (Except Err (List (Option (LinkArt × PDict))) × PDict) × Heap
  | [], _, H, d, h => ((.ok H, d), h)
  | (a, b) :: ps, l, H, d, h =>
    match (isLinkedTo a b).run h with
    | (true, h1) => match draw a b with
      | none => linkCall draw upd ps (l + 1) H d h1
      | some art =>
        if l < H.length then linkCall draw upd ps (l + 1) (H.set l (some (art, dictUpdate d (upd art)))) (dictUpdate d (upd art)) h1
        else ((.error .indexError, dictUpdate d (upd art)), h1)
    | (false, h1) => linkCall draw upd ps l H d h1

/-- `{'alpha': linkAlpha, 'linewidth': linkWidth, 'markevery': m}`, causetplotting.py:517-519 -/
noncomputable def dynamicUpd (art : LinkArt) : PDict :=
  [("alpha", .other (.num (art.alpha.getD 0))), ("linewidth", .other (.num (art.width.getD 0))), ("markevery", .other (.nums (art.markevery.map (fun n => (n : ℝ)))))]

/-- `{'markevery': list(range(1, len(X) - 1))}`, causetplotting.py:601-602, 630-631 -/
noncomputable def staticUpd (art : LinkArt) : PDict := [("markevery", .other (.nums (art.markevery.map (fun n => (n : ℝ)))))]

/-- the events in dynamic mode, causetplotting.py:534-543: `d` is `plotting_events` -/
noncomputable def eventCall (f : ℝ → ℝ) (time : ℝ) (dims : List ℤ) (co : EId → Point) : List EId → PDict → List (Option (EventArt × PDict)) × PDict
  | [], d => ([], d)
  | a :: es, d =>
    if f (co a 0 - time) ≤ 0 then
      let r := eventCall f time dims co es d
      (none :: r.1, r.2)
    else
      let d1 := dictUpdate d [("alpha", .other (.num (f (co a 0 - time))))]
      let r := eventCall f time dims co es d1
      (some (⟨a, axesOf dims (co a), some (f (co a 0 - time))⟩, d1) :: r.1, r.2)

/-- the links, events and labels of one call, causetplotting.py:467-650: the artists, and the dictionaries `plotting['links']`, `plotting['events']` afterwards -/
noncomputable def drawCall {γ : Type} (eps : ℝ) (o : PlotterObj γ) (co : EId → Point) (time : Except Err ℝ) (h : Heap) :
    (Except Err (List (Option (LinkArt × PDict)) × List (Option (EventArt × PDict)) × List (Option (EventArt × PDict))) × Option PDict × Option PDict) × Heap :=
  let p := o.plotting
  let H0 : List (Option (LinkArt × PDict)) := List.replicate o.linkCount none
  match p.timedepth with
  | some depth =>
    if o.events = [] then ((.ok (H0, [], []), p.links, p.events), h)
    else match time, o.dynEvents, o.dynLinks with
      | .error x, _, _ => ((.error x, p.links, p.events), h)
      | .ok t, some fe, some fl =>
        match linkCall (dynamicArt fe fl depth t p.dims co) dynamicUpd (eventPairs o.events) 0 H0 (p.links.getD []) h with
        | ((.error x, d), h1) => ((.error x, p.links.map (fun _ => d), p.events), h1)
        | ((.ok H, d), h1) =>
          let V := eventCall fe t p.dims co o.events (p.events.getD [])
          let lab (a : EId) : Option (EventArt × PDict) :=
            if fe (co a 0 - t) ≤ 0 then none else p.labels.map (fun d => (⟨a, axesOf p.dims (co a), none⟩, d))
          ((.ok (H, if p.events.isSome then V.1 else o.events.map (fun _ => none), o.events.map lab), p.links.map (fun _ => d), p.events.map (fun _ => V.2)), h1)
      | .ok _, _, _ => ((.error .typeError, p.links, p.events), h)
  | none =>
    let r : (Except Err (List (Option (LinkArt × PDict))) × Option PDict) × Heap := match p.links with
      | none => ((.ok H0, none), h)
      | some d =>
        let r := linkCall (staticArt eps p.is3d p.dims co o.events) staticUpd (eventPairs o.events) 0 H0 d h
        ((r.1.1, some r.1.2), r.2)
    match r with
    | ((.error x, ld), h1) => ((.error x, ld, p.events), h1)
    | ((.ok H, ld), h1) =>
      let art (d : Option PDict) (a : EId) : Option (EventArt × PDict) := d.map (fun d => (⟨a, axesOf p.dims (co a), none⟩, d))
      ((.ok (H, o.events.map (art p.events), o.events.map (art p.labels)), ld, p.events), h1)

/-- the cones of one sign in one call: nothing if they are switched off -/
noncomputable def coneCallPart {γ : Type} (cones : Option PDict) (fade : Option (ℝ → ℝ)) (sgn : ℝ) (geom : Point → ℝ → Except Err (Option γ)) (co : EId → Point)
    (time : Except Err ℝ) (events : List EId) : Except Err (Option (List (γ × PDict))) × Option PDict := match cones with
  | none => (.ok none, none)
  | some d => match coneCall fade sgn geom co time events d with
    | (.error x, d') => (.error x, some d')
    | (.ok l, d') => (.ok (some l), some d')

/-- one call of the plotting function, causetplotting.py:441-681: the outcome and the variables afterwards.  The handles are entered in `_h` at the end (672-681). -/
noncomputable def plotterCall {γ : Type} (eps : ℝ) (geomP geomF : Point → ℝ → Except Err (Option γ)) (co : EId → Point) (time : CallTime) (o : PlotterObj γ) (h : Heap) :
    (Except Err (StyledOut γ) × PlotterObj γ) × Heap :=
  let P := coneCallPart o.plotting.pastcones o.pastFade (-1) geomP co time.first o.events
  let F := coneCallPart o.plotting.futurecones o.futureFade 1 geomF co time.last o.events
  let o1 : PlotterObj γ := { o with plotting := { o.plotting with pastcones := P.2, futurecones := F.2 } }
  match P.1, F.1 with
  | .error x, _ => ((.error x, o1), h)
  | _, .error x => ((.error x, o1), h)
  | .ok pc, .ok fc =>
    let D := drawCall eps o1 co time.first h
    let o2 : PlotterObj γ := { o1 with plotting := { o1.plotting with links := D.1.2.1, events := D.1.2.2 } }
    match D.1.1 with
    | .error x => ((.error x, o2), D.2)
    | .ok (H, V, L) => match setAxis o.plotting.is3d o.plotting.axislim with
      | .error x => ((.error x, o2), D.2)
      | .ok ax =>
        let out : StyledOut γ := ⟨pc, fc, o.plotting.links.map (fun _ => H), o.plotting.events.map (fun _ => V), o.plotting.labels.map (fun _ => L), ax⟩
        ((.ok out, { o2 with handles := some out }), D.2)

/-- what happens to a plotting function: it is called, or the user changes events (their relations, links, labels, coordinates) in any way -/
inductive PlotStep
  | call (time : CallTime)
  | change (h : Heap) (co : EId → Point)

/-- a history of calls and changes -/
noncomputable def plotRun {γ : Type} (eps : ℝ) (geomP geomF : Point → ℝ → Except Err (Option γ)) : List PlotStep → PlotterObj γ × Heap × (EId → Point) →
    PlotterObj γ × Heap × (EId → Point)
  | [], s => s
  | .call t :: ss, (o, h, co) =>
    let r := plotterCall eps geomP geomF co t o h
    plotRun eps geomP geomF ss (r.1.2, r.2, co)
  | .change h co :: ss, (o, _, _) => plotRun eps geomP geomF ss (o, h, co)

end Causets
