import Verif.Model.PlotCalls
import Verif.Props.PlotLinks
import Verif.Props.PlotOutcome
import Verif.Props.MergeExact

/-! # C103 — calls of a plotting function do not depend on the calls before (causetplotting.py:326-683) -/

namespace Causets
open Heap

/-! ## dictionaries -/

theorem dictSet_twice {β : Type} (k : String) (v w : β) : ∀ d : List (String × β), dictSet k v (dictSet k w d) = dictSet k v d := by
  intro d
  induction d with
  | nil => simp [dictSet]
  | cons p d ih =>
    obtain ⟨k', x⟩ := p
    by_cases h : k' = k
    · simp [dictSet, h]
    · simp [dictSet, h, ih]

theorem dictSet_comm {β : Type} {k k' : String} (hk : k ≠ k') (v w : β) : ∀ d : List (String × β), k ∈ d.map Prod.fst →
    dictSet k v (dictSet k' w d) = dictSet k' w (dictSet k v d) := by
  intro d
  induction d with
  | nil => simp
  | cons p d ih =>
    obtain ⟨j, x⟩ := p
    intro hm
    by_cases h : j = k
    · subst h
      simp [dictSet, hk]
    · have hm' : k ∈ d.map Prod.fst := by
        simp only [List.map_cons, List.mem_cons] at hm
        rcases hm with hm | hm
        · exact absurd hm.symm h
        · exact hm
      by_cases h' : j = k'
      · simp [dictSet, h, h', Ne.symm hk]
      · simp [dictSet, h, h', ih hm']

theorem mem_keys_dictSet {β : Type} (k k' : String) (v : β) : ∀ d : List (String × β), k' ∈ (dictSet k v d).map Prod.fst ↔ k' = k ∨ k' ∈ d.map Prod.fst := by
  intro d
  induction d with
  | nil => simp [dictSet]
  | cons p d ih =>
    obtain ⟨j, x⟩ := p
    by_cases h : j = k
    · subst h; simp [dictSet]
    · simp only [dictSet, h, if_false, List.map_cons, List.mem_cons, ih]; tauto

theorem dictSet_dictUpdate {β : Type} (k : String) (v : β) : ∀ (u d : List (String × β)), k ∈ d.map Prod.fst → k ∉ u.map Prod.fst →
    dictSet k v (dictUpdate d u) = dictUpdate (dictSet k v d) u := by
  intro u
  induction u with
  | nil => intro d _ _; rfl
  | cons p u ih =>
    intro d hd hu
    simp only [List.map_cons, List.mem_cons, not_or] at hu
    have : dictUpdate d (p :: u) = dictUpdate (dictSet p.1 p.2 d) u := rfl
    rw [this, ih _ ((mem_keys_dictSet _ _ _ d).2 (Or.inr hd)) hu.2, dictSet_comm hu.1 _ _ d hd]
    rfl

/-- updating a dictionary twice with the same keys is updating it once -/
theorem dictUpdate_twice {β : Type} : ∀ (u u' d : List (String × β)), u.map Prod.fst = u'.map Prod.fst → (u.map Prod.fst).Nodup →
    dictUpdate (dictUpdate d u) u' = dictUpdate d u' := by
  intro u
  induction u with
  | nil => intro u' d h _; rfl
  | cons p u ih =>
    intro u' d h hn
    cases u' with
    | nil => simp at h
    | cons p' u' =>
      simp only [List.map_cons, List.cons.injEq] at h
      simp only [List.map_cons, List.nodup_cons] at hn
      have e1 : dictUpdate (dictUpdate d (p :: u)) (p' :: u') = dictUpdate (dictSet p'.1 p'.2 (dictUpdate (dictSet p.1 p.2 d) u)) u' := rfl
      rw [e1, ← h.1, dictSet_dictUpdate _ _ _ _ ((mem_keys_dictSet _ _ _ d).2 (Or.inl rfl)) hn.1, dictSet_twice, ih u' _ h.2 hn.2]
      show _ = dictUpdate (dictSet p'.1 p'.2 d) u'
      rw [← h.1]

/-- `d` is `d0`, perhaps with new values for the keys `K` -/
def OverK (K : List String) (d0 d : PDict) : Prop := d = d0 ∨ ∃ u : PDict, u.map Prod.fst = K ∧ d = dictUpdate d0 u

theorem OverK.update {K : List String} (hK : K.Nodup) {d0 d u : PDict} (h : OverK K d0 d) (hu : u.map Prod.fst = K) : dictUpdate d u = dictUpdate d0 u := by
  rcases h with rfl | ⟨u', h1, rfl⟩
  · rfl
  · exact dictUpdate_twice u' u d0 (h1.trans hu.symm) (h1 ▸ hK)

/-- the same for dictionaries that may be missing -/
def OverO (K : List String) : Option PDict → Option PDict → Prop
  | none, none => True
  | some d0, some d => OverK K d0 d
  | _, _ => False

theorem OverO.refl (K : List String) (d : Option PDict) : OverO K d d := by
  cases d
  · trivial
  · exact Or.inl rfl

theorem OverO.isSome {K : List String} {a b : Option PDict} (h : OverO K a b) : b.isSome = a.isSome := by
  cases a <;> cases b <;> simp_all [OverO]

theorem OverO.map {K : List String} {a b : Option PDict} (h : OverO K a b) {β : Type} (x : β) : b.map (fun _ => x) = a.map (fun _ => x) := by
  cases a <;> cases b <;> simp_all [OverO]

/-! ## the loops -/

section
variable {γ : Type}

theorem coneCall_over (fade : Option (ℝ → ℝ)) (sgn : ℝ) (geom : Point → ℝ → Except Err (Option γ)) (co : EId → Point) (time : Except Err ℝ) (d0 : PDict) :
    ∀ (es : List EId) (d : PDict), OverK ["alpha"] d0 d → (coneCall fade sgn geom co time es d).1 = (coneCall fade sgn geom co time es d0).1 ∧
      OverK ["alpha"] d0 (coneCall fade sgn geom co time es d).2 := by
  intro es
  induction es with
  | nil => intro d hd; exact ⟨rfl, hd⟩
  | cons e es ih =>
    intro d hd
    unfold coneCall
    cases time with
    | error x => exact ⟨rfl, hd⟩
    | ok t =>
      simp only
      split_ifs with h1
      · exact ih d hd
      · cases fade with
        | none => exact ⟨rfl, hd⟩
        | some f =>
          simp only
          split_ifs with h2
          · exact ih d hd
          · have eu := hd.update (by simp) (u := [("alpha", .other (.num (f (sgn * (t - co e 0)))))]) rfl
            rw [eu]
            have ho : OverK ["alpha"] d0 (dictUpdate d0 [("alpha", .other (.num (f (sgn * (t - co e 0)))))]) := Or.inr ⟨_, rfl, rfl⟩
            have := (ih _ ho).2
            rcases geom (co e) t with x | _ | y
            · exact ⟨rfl, ho⟩
            · exact ⟨rfl, this⟩
            · refine ⟨rfl, ?_⟩
              simp only
              revert this
              rcases coneCall (some f) sgn geom co (.ok t) es (dictUpdate d0 [("alpha", .other (.num (f (sgn * (t - co e 0)))))]) with ⟨x | l, d2⟩ <;> exact id

theorem linkCall_over (draw : EId → EId → Option LinkArt) (upd : LinkArt → PDict) (K : List String) (hK : K.Nodup) (hu : ∀ art, (upd art).map Prod.fst = K) (d0 : PDict) :
    ∀ (ps : List (EId × EId)) (l : ℕ) (H : List (Option (LinkArt × PDict))) (d : PDict) (h : Heap), OverK K d0 d →
      (linkCall draw upd ps l H d h).1.1 = (linkCall draw upd ps l H d0 h).1.1 ∧ (linkCall draw upd ps l H d h).2 = (linkCall draw upd ps l H d0 h).2 ∧
      OverK K d0 (linkCall draw upd ps l H d h).1.2 := by
  intro ps
  induction ps with
  | nil => intro l H d h hd; exact ⟨rfl, rfl, hd⟩
  | cons q ps ih =>
    obtain ⟨a, b⟩ := q
    intro l H d h hd
    unfold linkCall
    rcases (isLinkedTo a b).run h with ⟨_ | _, h1⟩
    · exact ih l H d h1 hd
    · simp only
      cases draw a b with
      | none => exact ih (l + 1) H d h1 hd
      | some art =>
        simp only
        rw [hd.update hK (hu art)]
        have ho : OverK K d0 (dictUpdate d0 (upd art)) := Or.inr ⟨_, hu art, rfl⟩
        split_ifs with hl
        · exact ⟨rfl, rfl, (ih _ _ _ _ ho).2.2⟩
        · exact ⟨rfl, rfl, ho⟩

theorem eventCall_over (f : ℝ → ℝ) (time : ℝ) (dims : List ℤ) (co : EId → Point) (d0 : PDict) :
    ∀ (es : List EId) (d : PDict), OverK ["alpha"] d0 d → (eventCall f time dims co es d).1 = (eventCall f time dims co es d0).1 ∧
      OverK ["alpha"] d0 (eventCall f time dims co es d).2 := by
  intro es
  induction es with
  | nil => intro d hd; exact ⟨rfl, hd⟩
  | cons e es ih =>
    intro d hd
    unfold eventCall
    simp only
    split_ifs with h1
    · exact ⟨by rw [(ih d hd).1], (ih d hd).2⟩
    · rw [hd.update (by simp) (u := [("alpha", .other (.num (f (co e 0 - time))))]) rfl]
      exact ⟨rfl, (ih _ (Or.inr ⟨_, rfl, rfl⟩)).2⟩

/-- the keys of `plotting['links']` that the calls set -/
def linkKeys (p : PlotParams) : List String := if p.timedepth.isSome then ["alpha", "linewidth", "markevery"] else ["markevery"]

/-- what calls can change: the values of some keys of the dictionaries of cones, links and (in dynamic mode) events -/
structure PlotterObj.Over (o0 o : PlotterObj γ) : Prop where
  events : o.events = o0.events
  linkCount : o.linkCount = o0.linkCount
  pastFade : o.pastFade = o0.pastFade
  futureFade : o.futureFade = o0.futureFade
  dynEvents : o.dynEvents = o0.dynEvents
  dynLinks : o.dynLinks = o0.dynLinks
  rest : o.plotting = { o0.plotting with pastcones := o.plotting.pastcones, futurecones := o.plotting.futurecones, links := o.plotting.links, events := o.plotting.events }
  past : OverO ["alpha"] o0.plotting.pastcones o.plotting.pastcones
  future : OverO ["alpha"] o0.plotting.futurecones o.plotting.futurecones
  links : OverO (linkKeys o0.plotting) o0.plotting.links o.plotting.links
  events' : if o0.plotting.timedepth.isSome then OverO ["alpha"] o0.plotting.events o.plotting.events else o.plotting.events = o0.plotting.events

theorem coneCallPart_over (fade : Option (ℝ → ℝ)) (sgn : ℝ) (geom : Point → ℝ → Except Err (Option γ)) (co : EId → Point) (time : Except Err ℝ) (es : List EId)
    (a b : Option PDict) (h : OverO ["alpha"] a b) : (coneCallPart b fade sgn geom co time es).1 = (coneCallPart a fade sgn geom co time es).1 ∧
      OverO ["alpha"] a (coneCallPart b fade sgn geom co time es).2 := by
  cases a with
  | none => cases b with
    | none => exact ⟨rfl, trivial⟩
    | some d => exact h.elim
  | some d0 => cases b with
    | none => exact h.elim
    | some d =>
      obtain ⟨h1, h2⟩ := coneCall_over fade sgn geom co time d0 es d h
      unfold coneCallPart
      simp only
      revert h1 h2
      rcases coneCall fade sgn geom co time es d with ⟨x | l, d'⟩ <;> rcases coneCall fade sgn geom co time es d0 with ⟨x0 | l0, d0'⟩ <;>
        (intro h1 h2; simp only at h1 h2) <;> first | cases h1; exact ⟨rfl, h2⟩ | cases h1

theorem dynamicUpd_keys (art : LinkArt) : (dynamicUpd art).map Prod.fst = ["alpha", "linewidth", "markevery"] := rfl
theorem staticUpd_keys (art : LinkArt) : (staticUpd art).map Prod.fst = ["markevery"] := rfl

theorem drawCall_over (eps : ℝ) (o0 o : PlotterObj γ) (co : EId → Point) (time : Except Err ℝ) (h : Heap) (ho : o0.Over o) :
    (drawCall eps o co time h).1.1 = (drawCall eps o0 co time h).1.1 ∧ (drawCall eps o co time h).2 = (drawCall eps o0 co time h).2 ∧
    OverO (linkKeys o0.plotting) o0.plotting.links (drawCall eps o co time h).1.2.1 ∧
    (if o0.plotting.timedepth.isSome then OverO ["alpha"] o0.plotting.events (drawCall eps o co time h).1.2.2
      else (drawCall eps o co time h).1.2.2 = o0.plotting.events) := by
  obtain ⟨p, ev, n, fp, ff, de, dl, hd⟩ := o
  obtain ⟨p0, ev0, n0, fp0, ff0, de0, dl0, hd0⟩ := o0
  obtain ⟨h1, h2, h3, h4, h5, h6, h7, h8, h9, hl, he⟩ := ho
  simp only at h1 h2 h3 h4 h5 h6 h7 h8 h9 hl he
  subst h1 h2 h3 h4 h5 h6
  have e1 : p.timedepth = p0.timedepth := by rw [h7]
  have e2 : p.dims = p0.dims := by rw [h7]
  have e3 : p.labels = p0.labels := by rw [h7]
  have e4 : p.is3d = p0.is3d := by rw [h7]
  unfold drawCall
  simp only [e1, e2, e3, e4]
  rcases ht : p0.timedepth with _ | depth
  · have hk : linkKeys p0 = ["markevery"] := by simp [linkKeys, ht]
    simp only [ht, Option.isSome_none, Bool.false_eq_true, if_false] at he
    rw [he]
    rw [hk] at hl ⊢
    rcases hpl0 : p0.links with _ | d0
    · rcases hpl : p.links with _ | d
      · exact ⟨rfl, rfl, trivial, by simp⟩
      · rw [hpl0, hpl] at hl; exact hl.elim
    · rcases hpl : p.links with _ | d
      · rw [hpl0, hpl] at hl; exact hl.elim
      · rw [hpl0, hpl] at hl
        simp only
        obtain ⟨k1, k2, k3⟩ := linkCall_over (staticArt eps p0.is3d p0.dims co ev) staticUpd ["markevery"] (by simp) staticUpd_keys d0 (eventPairs ev) 0
          (List.replicate n none) d h hl
        revert k1 k2 k3
        rcases linkCall (staticArt eps p0.is3d p0.dims co ev) staticUpd (eventPairs ev) 0 (List.replicate n none) d h with ⟨⟨x | H, d'⟩, h'⟩ <;>
          rcases linkCall (staticArt eps p0.is3d p0.dims co ev) staticUpd (eventPairs ev) 0 (List.replicate n none) d0 h with ⟨⟨x0 | H0, d0'⟩, h0'⟩ <;>
          (intro k1 k2 k3; simp only at k1 k2 k3) <;> first | (cases k1; cases k2; exact ⟨rfl, rfl, k3, by simp⟩) | cases k1
  · have hk : linkKeys p0 = ["alpha", "linewidth", "markevery"] := by simp [linkKeys, ht]
    simp only [ht, Option.isSome_some, if_true] at he ⊢
    rw [hk] at hl ⊢
    by_cases hev : ev = []
    · rw [if_pos hev, if_pos hev]
      exact ⟨rfl, rfl, hl, he⟩
    · rw [if_neg hev, if_neg hev]
      rcases time with x | t
      · exact ⟨rfl, rfl, hl, he⟩
      · rcases de with _ | fe
        · exact ⟨rfl, rfl, hl, he⟩
        · rcases dl with _ | fl
          · exact ⟨rfl, rfl, hl, he⟩
          · simp only
            have hov : OverK ["alpha", "linewidth", "markevery"] (p0.links.getD []) (p.links.getD []) := by
              revert hl
              cases p0.links <;> cases p.links <;> simp [OverO, OverK]
            have hev2 : OverK ["alpha"] (p0.events.getD []) (p.events.getD []) := by
              revert he
              cases p0.events <;> cases p.events <;> simp [OverO, OverK]
            obtain ⟨k1, k2, k3⟩ := linkCall_over (dynamicArt fe fl depth t p0.dims co) dynamicUpd _ (by simp) dynamicUpd_keys (p0.links.getD []) (eventPairs ev) 0
              (List.replicate n none) (p.links.getD []) h hov
            obtain ⟨m1, m2⟩ := eventCall_over fe t p0.dims co (p0.events.getD []) ev (p.events.getD []) hev2
            have mapl : ∀ d', OverK ["alpha", "linewidth", "markevery"] (p0.links.getD []) d' →
                OverO ["alpha", "linewidth", "markevery"] p0.links (p.links.map (fun _ => d')) := by
              intro d' h'
              revert hl h'
              cases p0.links <;> cases p.links <;> simp [OverO]
            have mape : ∀ d', OverK ["alpha"] (p0.events.getD []) d' → OverO ["alpha"] p0.events (p.events.map (fun _ => d')) := by
              intro d' h'
              revert he h'
              cases p0.events <;> cases p.events <;> simp [OverO]
            revert k1 k2 k3
            rcases linkCall (dynamicArt fe fl depth t p0.dims co) dynamicUpd (eventPairs ev) 0 (List.replicate n none) (p.links.getD []) h with ⟨⟨x | H, d'⟩, h'⟩ <;>
              rcases linkCall (dynamicArt fe fl depth t p0.dims co) dynamicUpd (eventPairs ev) 0 (List.replicate n none) (p0.links.getD []) h with ⟨⟨x0 | H0, d0'⟩, h0'⟩ <;>
              (intro k1 k2 k3; simp only at k1 k2 k3)
            · cases k1; cases k2; exact ⟨rfl, rfl, mapl _ k3, he⟩
            · cases k1
            · cases k1
            · cases k1; cases k2
              refine ⟨?_, rfl, mapl _ k3, mape _ m2⟩
              simp only [m1, he.isSome]

theorem PlotterObj.Over.refl (o : PlotterObj γ) : o.Over o :=
  ⟨rfl, rfl, rfl, rfl, rfl, rfl, rfl, OverO.refl _ _, OverO.refl _ _, OverO.refl _ _, by split_ifs; exacts [OverO.refl _ _, rfl]⟩

theorem plotterCall_over (eps : ℝ) (geomP geomF : Point → ℝ → Except Err (Option γ)) (co : EId → Point) (time : CallTime) (o0 o : PlotterObj γ) (h : Heap)
    (ho : o0.Over o) : (plotterCall eps geomP geomF co time o h).1.1 = (plotterCall eps geomP geomF co time o0 h).1.1 ∧
      (plotterCall eps geomP geomF co time o h).2 = (plotterCall eps geomP geomF co time o0 h).2 ∧ o0.Over (plotterCall eps geomP geomF co time o h).1.2 := by
  obtain ⟨p, ev, n, fp, ff, de, dl, hd⟩ := o
  obtain ⟨p0, ev0, n0, fp0, ff0, de0, dl0, hd0⟩ := o0
  obtain ⟨h1, h2, h3, h4, h5, h6, h7, h8, h9, hl, he⟩ := ho
  simp only at h1 h2 h3 h4 h5 h6 h7 h8 h9 hl he
  subst h1 h2 h3 h4 h5 h6
  obtain ⟨a1, a2⟩ := coneCallPart_over fp (-1) geomP co time.first ev _ _ h8
  obtain ⟨b1, b2⟩ := coneCallPart_over ff 1 geomF co time.last ev _ _ h9
  obtain ⟨a1', a2'⟩ := coneCallPart_over fp (-1) geomP co time.first ev _ _ (OverO.refl ["alpha"] p0.pastcones)
  obtain ⟨b1', b2'⟩ := coneCallPart_over ff 1 geomF co time.last ev _ _ (OverO.refl ["alpha"] p0.futurecones)
  unfold plotterCall
  simp only
  rw [a1, b1]
  revert a2 b2 a2' b2'
  generalize (coneCallPart p.pastcones fp (-1) geomP co time.first ev).2 = P
  generalize (coneCallPart p.futurecones ff 1 geomF co time.last ev).2 = F
  generalize (coneCallPart p0.pastcones fp (-1) geomP co time.first ev).2 = P0
  generalize (coneCallPart p0.futurecones ff 1 geomF co time.last ev).2 = F0
  intro a2 b2 a2' b2'
  have hOv : ∀ (l e : Option PDict) (hd : Option (StyledOut γ)), OverO (linkKeys p0) p0.links l →
      (if p0.timedepth.isSome then OverO ["alpha"] p0.events e else e = p0.events) →
      PlotterObj.Over ⟨p0, ev, n, fp, ff, de, dl, hd0⟩
        ⟨{ p with pastcones := P, futurecones := F, links := l, events := e }, ev, n, fp, ff, de, dl, hd⟩ := fun l e hd k1 k2 =>
    ⟨rfl, rfl, rfl, rfl, rfl, rfl, by simp only; rw [h7], a2, b2, k1, k2⟩
  have ho1 : PlotterObj.Over ⟨p0, ev, n, fp, ff, de, dl, hd0⟩ ⟨{ p with pastcones := P, futurecones := F }, ev, n, fp, ff, de, dl, hd⟩ := hOv p.links p.events hd hl he
  have ho10 : PlotterObj.Over ⟨p0, ev, n, fp, ff, de, dl, hd0⟩ ⟨{ p0 with pastcones := P0, futurecones := F0 }, ev, n, fp, ff, de, dl, hd0⟩ :=
    ⟨rfl, rfl, rfl, rfl, rfl, rfl, rfl, a2', b2', OverO.refl _ _, (PlotterObj.Over.refl (⟨p0, ev, n, fp, ff, de, dl, hd0⟩ : PlotterObj γ)).events'⟩
  obtain ⟨c1, c2, c3, c4⟩ := drawCall_over eps _ _ co time.first h ho1
  obtain ⟨d1, d2, -⟩ := drawCall_over eps _ _ co time.first h ho10
  rcases (coneCallPart p0.pastcones fp (-1) geomP co time.first ev).1 with x | pc
  · exact ⟨rfl, rfl, ho1⟩
  · rcases (coneCallPart p0.futurecones ff 1 geomF co time.last ev).1 with x | fc
    · exact ⟨rfl, rfl, ho1⟩
    · simp only
      rw [c1, c2, d1, d2]
      rcases (drawCall eps ⟨p0, ev, n, fp, ff, de, dl, hd0⟩ co time.first h).1.1 with x | ⟨H, V, L⟩
      · exact ⟨rfl, rfl, hOv _ _ _ c3 c4⟩
      · simp only
        have e1 : p.is3d = p0.is3d := by rw [h7]
        have e2 : p.axislim = p0.axislim := by rw [h7]
        have e3 : p.labels = p0.labels := by rw [h7]
        have e5 : p.events.map (fun _ => V) = p0.events.map (fun _ => V) := by
          split_ifs at he
          · exact he.map V
          · rw [he]
        have eA : setAxis p.is3d p.axislim = setAxis p0.is3d p0.axislim := by rw [e1, e2]
        rw [eA]
        rcases setAxis p0.is3d p0.axislim with x | ax
        · exact ⟨rfl, rfl, hOv _ _ _ c3 c4⟩
        · exact ⟨by simp only [e3, e5, hl.map H], rfl, hOv _ _ _ c3 c4⟩

theorem plotRun_over (eps : ℝ) (geomP geomF : Point → ℝ → Except Err (Option γ)) (o0 : PlotterObj γ) : ∀ (ss : List PlotStep) (o : PlotterObj γ) (h : Heap)
    (co : EId → Point), o0.Over o → o0.Over (plotRun eps geomP geomF ss (o, h, co)).1 := by
  intro ss
  induction ss with
  | nil => intro o h co ho; exact ho
  | cons s ss ih =>
    intro o h co ho
    cases s with
    | call t => exact ih _ _ _ (plotterCall_over eps geomP geomF co t o0 o h ho).2.2
    | change h' co' => exact ih _ _ _ ho

/-- **C103, calls are independent of the calls before.** After any history of calls (at any times, also calls that raised an exception) and any changes of the events, their
links and coordinates, a call of a plotting function creates exactly the artists — with the same coordinates and the same keyword arguments for matplotlib — that it would have
created as the first call with the events as they are now, or raises the same exception. -/
theorem C103_calls (eps : ℝ) (geomP geomF : Point → ℝ → Except Err (Option γ)) (o : PlotterObj γ) (ss : List PlotStep) (h0 : Heap) (co0 : EId → Point)
    (time : CallTime) (h : Heap) (co : EId → Point) :
    (plotterCall eps geomP geomF co time (plotRun eps geomP geomF ss (o, h0, co0)).1 h).1.1 = (plotterCall eps geomP geomF co time o h).1.1 ∧
    (plotterCall eps geomP geomF co time (plotRun eps geomP geomF ss (o, h0, co0)).1 h).2 = (plotterCall eps geomP geomF co time o h).2 :=
  let k := plotterCall_over eps geomP geomF co time o _ h (plotRun_over eps geomP geomF o ss o h0 co0 (PlotterObj.Over.refl o))
  ⟨k.1, k.2.1⟩

/-! ## the first call -/

/-- the artists without the keyword arguments other than `alpha` of cones -/
def StyledOut.erase (s : StyledOut γ) : PlotOut γ where
  pastcones := s.pastcones.map (List.map (fun q => (dictNum q.2 "alpha" 0, q.1)))
  futurecones := s.futurecones.map (List.map (fun q => (dictNum q.2 "alpha" 0, q.1)))
  links := s.links.map (List.map (Option.map Prod.fst))
  events := s.events.map (List.map (Option.map Prod.fst))
  labels := s.labels.map (List.map (Option.map Prod.fst))
  axis := s.axis

theorem lookup_dictSet {β : Type} (k : String) (v : β) : ∀ d : List (String × β), (dictSet k v d).lookup k = some v := by
  intro d
  induction d with
  | nil => simp [dictSet]
  | cons p d ih =>
    obtain ⟨j, x⟩ := p
    by_cases h : j = k
    · simp [dictSet, h]
    · have h' : (k == j) = false := by simpa using Ne.symm h
      simp [dictSet, h, List.lookup_cons, h', ih]

theorem dictNum_update (d : PDict) (k : String) (x y : ℝ) : dictNum (dictUpdate d [(k, .other (.num x))]) k y = x := by
  unfold dictNum dictUpdate
  simp [lookup_dictSet]

theorem coneCall_erase (fade : Option (ℝ → ℝ)) (sgn : ℝ) (geom : Point → ℝ → Except Err (Option γ)) (co : EId → Point) (t : ℝ) :
    ∀ (es : List EId) (d : PDict), (coneCall fade sgn geom co (.ok t) es d).1.map (List.map (fun q => (dictNum q.2 "alpha" 0, q.1))) =
      coneLoop fade sgn geom co t es := by
  intro es
  induction es with
  | nil => intro d; rfl
  | cons e es ih =>
    intro d
    unfold coneCall coneLoop coneArt
    simp only
    split_ifs with h1
    · rw [ih d]; simp only [bind, Except.bind, pure, Except.pure]; cases coneLoop fade sgn geom co t es <;> rfl
    · cases fade with
      | none => rfl
      | some f =>
        simp only
        split_ifs with h2
        · rw [ih d]; simp only [bind, Except.bind, pure, Except.pure]; cases coneLoop (some f) sgn geom co t es <;> rfl
        · rcases geom (co e) t with x | _ | y
          · rfl
          · simp only
            rw [ih]; simp only [bind, Except.bind, pure, Except.pure]; cases coneLoop (some f) sgn geom co t es <;> rfl
          · simp only
            have := ih (dictUpdate d [("alpha", .other (.num (f (sgn * (t - co e 0)))))])
            revert this
            rcases coneCall (some f) sgn geom co (.ok t) es (dictUpdate d [("alpha", .other (.num (f (sgn * (t - co e 0)))))]) with ⟨x | l, d2⟩ <;>
              (intro this; rw [← this]; simp [bind, Except.bind, pure, Except.pure, Except.map, dictNum_update])

theorem linkCall_erase (draw : EId → EId → Option LinkArt) (upd : LinkArt → PDict) :
    ∀ (ps : List (EId × EId)) (l : ℕ) (H : List (Option (LinkArt × PDict))) (d : PDict) (h : Heap),
      (linkLoop draw ps l (H.map (Option.map Prod.fst))).run h =
        ((linkCall draw upd ps l H d h).1.1.map (List.map (Option.map Prod.fst)), (linkCall draw upd ps l H d h).2) := by
  intro ps
  induction ps with
  | nil => intro l H d h; rfl
  | cons q ps ih =>
    obtain ⟨a, b⟩ := q
    intro l H d h
    unfold linkCall linkLoop
    rw [StateT.run_bind]
    rcases hr : (isLinkedTo a b).run h with ⟨_ | _, h1⟩
    · exact ih l H d h1
    · simp only [bind]
      cases draw a b with
      | none => exact ih (l + 1) H d h1
      | some art =>
        simp only [List.length_map, Id.run, if_true]
        split_ifs with hl
        · have := ih (l + 1) (H.set l (some (art, dictUpdate d (upd art)))) (dictUpdate d (upd art)) h1
          rw [List.map_set] at this
          exact this
        · rfl

theorem eventCall_erase (f : ℝ → ℝ) (time : ℝ) (dims : List ℤ) (co : EId → Point) : ∀ (es : List EId) (d : PDict),
    (eventCall f time dims co es d).1.map (Option.map Prod.fst) =
      es.map (fun a => if f (co a 0 - time) ≤ 0 then none else some (⟨a, axesOf dims (co a), some (f (co a 0 - time))⟩ : EventArt)) := by
  intro es
  induction es with
  | nil => intro d; rfl
  | cons e es ih =>
    intro d
    unfold eventCall
    simp only
    split_ifs with h1
    · simp [h1, ih]
    · simp [h1, ih]

theorem coneCallPart_erase (p : PlotParams) (cones : Option PDict) (fade : Option (ℝ → ℝ)) (hf : coneFade p cones = .ok fade) (sgn : ℝ)
    (geom : Point → ℝ → Except Err (Option γ)) (co : EId → Point) (t : ℝ) (es : List EId) :
    (coneCallPart cones fade sgn geom co (.ok t) es).1.map (Option.map (List.map (fun q => (dictNum q.2 "alpha" 0, q.1)))) = conePart p cones sgn geom co t es := by
  cases cones with
  | none => rfl
  | some d =>
    unfold coneFade at hf
    simp only at hf
    by_cases hc : p.conetimefade = ""
    · rw [if_pos hc] at hf; cases hf
    · rw [if_neg hc] at hf
      have hf := Except.ok.inj hf
      unfold coneCallPart conePart
      simp only [hc, if_false]
      rw [hf, ← coneCall_erase _ sgn geom co t es d]
      rcases coneCall fade sgn geom co (.ok t) es d with ⟨x | l, d2⟩ <;> rfl

theorem coneFade_error (p : PlotParams) (cones : Option PDict) (x : Err) (hf : coneFade p cones = .error x) (sgn : ℝ)
    (geom : Point → ℝ → Except Err (Option γ)) (co : EId → Point) (t : ℝ) (es : List EId) : conePart p cones sgn geom co t es = .error x := by
  cases cones with
  | none => cases hf
  | some d =>
    unfold coneFade at hf
    simp only at hf
    by_cases hc : p.conetimefade = ""
    · rw [if_pos hc] at hf; cases hf
      unfold conePart
      simp only [hc, if_true]
    · rw [if_neg hc] at hf; cases hf

/-- the object that the set-up returns for given parameters and number of links -/
noncomputable def setupObj (p : PlotParams) (events : List EId) (n : ℕ) (fp ff : Option (ℝ → ℝ)) : PlotterObj γ :=
  ⟨p, events, n, fp, ff,
    p.timedepth.bind (fun depth => dynamicParameter p.timefade (if p.is3d then 3 else 2) depth (dictNum (p.events.getD []) "alpha" 1)),
    p.timedepth.bind (fun depth => dynamicParameter p.timefade (if p.is3d then 3 else 2) depth (dictNum (p.links.getD []) "linewidth" 0)), none⟩

theorem plotterSetup_run (it : Iter) (g dc : Scheme) (E : PlotTarget) (a : PlotArgs) (h : Heap) (p : PlotParams) (hp : plotParameters g dc a = .ok p) :
    (plotterSetup (γ := γ) it g dc E a).run h =
      let c := (if p.links.isSome then linkCountOf it (targetEvents it E).toFinset else pure 0 : StateM Heap ℕ).run h
      (match coneFade p p.pastcones, coneFade p p.futurecones with
       | .ok fp, .ok ff => if p.timedepth.isSome ∧ p.links = none then .error .keyError else .ok (setupObj p (targetEvents it E) c.1 fp ff)
       | .error x, _ => .error x
       | _, .error x => .error x, c.2) := by
  unfold plotterSetup
  rw [hp]
  simp only [StateT.run_bind]
  generalize ((if p.links.isSome then linkCountOf it (targetEvents it E).toFinset else pure 0 : StateM Heap ℕ).run h) = c
  obtain ⟨n, h1⟩ := c
  simp only [bind]
  rcases coneFade p p.pastcones with x | fp
  · rfl
  · rcases coneFade p p.futurecones with x | ff
    · rfl
    · simp only
      unfold setupObj
      rcases p.timedepth with _ | depth
      · simp; rfl
      · rcases p.links with _ | ld
        · simp; rfl
        · simp; rfl

theorem drawCall_erase (eps : ℝ) (p : PlotParams) (events : List EId) (n : ℕ) (fp ff : Option (ℝ → ℝ)) (co : EId → Point) (t : ℝ) (h : Heap)
    (hk : ¬ (p.timedepth.isSome ∧ p.links = none)) (P F : Option PDict) :
    (drawPart eps p co t events n).run h =
      let D := drawCall eps { setupObj (γ := γ) p events n fp ff with plotting := { p with pastcones := P, futurecones := F } } co (.ok t) h
      (D.1.1.map (fun r => (r.1.map (Option.map Prod.fst), r.2.1.map (Option.map Prod.fst), r.2.2.map (Option.map Prod.fst))), D.2) := by
  have hrep : ∀ m : ℕ, (List.replicate m none : List (Option LinkArt)) = (List.replicate m (none : Option (LinkArt × PDict))).map (Option.map Prod.fst) := by
    intro m; simp
  unfold drawPart drawCall setupObj
  simp only
  rcases ht : p.timedepth with _ | depth
  · simp only
    have hlab : ∀ (d : Option PDict) (l : List EId),
        (l.map (fun a => d.map (fun d => ((⟨a, axesOf p.dims (co a), none⟩, d) : EventArt × PDict)))).map (Option.map Prod.fst) =
          l.map (fun a => if d.isSome then some (⟨a, axesOf p.dims (co a), none⟩ : EventArt) else none) := by
      intro d l; cases d <;> simp
    rcases hl : p.links with _ | ld
    · simp only [Option.isSome_none, Bool.false_eq_true, if_false, pure_bind, hlab, Except.map]
      rw [← hrep]; rfl
    · simp only [Option.isSome_some, if_true]
      rw [StateT.run_bind, hrep, linkCall_erase _ staticUpd _ _ _ ld]
      rcases linkCall (staticArt eps p.is3d p.dims co events) staticUpd (eventPairs events) 0 (List.replicate n none) ld h with ⟨⟨x | H, d'⟩, h'⟩
      · rfl
      · simp only [hlab, Except.map]; rfl
  · simp only [ht, Option.isSome_some, true_and] at hk
    rcases hl : p.links with _ | ld
    · exact absurd hl hk
    · simp only [Option.bind_some, Option.getD_some]
      generalize hfe : dynamicParameter p.timefade (if p.is3d = true then 3 else 2) depth (dictNum (p.events.getD []) "alpha" 1) = oe
      generalize hfl : dynamicParameter p.timefade (if p.is3d = true then 3 else 2) depth (dictNum ld "linewidth" 0) = ol
      by_cases hev : events = []
      · subst hev
        simp only [if_true]
        rcases oe with _ | fe
        · simp [Except.map]; rfl
        · rcases ol with _ | fl
          · simp [Except.map]; rfl
          · simp [eventPairs, linkLoop, Except.map]; rfl
      · simp only [hev, if_false]
        rcases oe with _ | fe
        · rfl
        · rcases ol with _ | fl
          · rfl
          · simp only
            rw [StateT.run_bind, hrep, linkCall_erase _ dynamicUpd _ _ _ ld]
            rcases linkCall (dynamicArt fe fl depth t p.dims co) dynamicUpd (eventPairs events) 0 (List.replicate n none) ld h with ⟨⟨x | H, d'⟩, h'⟩
            · rfl
            · simp only [Except.map, bind]
              have h1 : (if p.events.isSome then (eventCall fe t p.dims co events (p.events.getD [])).1 else events.map (fun _ => none)).map (Option.map Prod.fst) =
                  events.map (fun a => if p.events.isSome then
                    (if fe (co a 0 - t) ≤ 0 then none else some (⟨a, axesOf p.dims (co a), some (fe (co a 0 - t))⟩ : EventArt)) else none) := by
                cases he : p.events.isSome
                · simp
                · simp only [if_true, eventCall_erase]
              have h2 : (events.map (fun a => if fe (co a 0 - t) ≤ 0 then none else p.labels.map (fun d => ((⟨a, axesOf p.dims (co a), none⟩, d) : EventArt × PDict)))).map
                  (Option.map Prod.fst) = events.map (fun a => if p.labels.isSome then
                    (if fe (co a 0 - t) ≤ 0 then none else some (⟨a, axesOf p.dims (co a), none⟩ : EventArt)) else none) := by
                rw [List.map_map]
                refine List.map_congr_left (fun a _ => ?_)
                simp only [Function.comp]
                cases p.labels <;> by_cases hz : fe (co a 0 - t) ≤ 0 <;> simp [hz]
              rw [h1, h2]
              rfl

/-- **C103, the first call.** Setting up a plotting function and calling it creates exactly the artists of the plot that the other plotting theorems (C57, C75, C76, C90) describe. -/
theorem C103_first (it : Iter) (eps : ℝ) (g dc : Scheme) (geomP geomF : Point → ℝ → Except Err (Option γ)) (co : EId → Point) (E : PlotTarget) (a : PlotArgs)
    (t0 t1 : ℝ) (h : Heap) (out : PlotOut γ) :
    ((plotter it eps g dc geomP geomF co E a t0 t1).run h).1 = .ok out ↔
      ∃ o h1 s, (plotterSetup it g dc E a).run h = (.ok o, h1) ∧ (plotterCall eps geomP geomF co (.list [t0, t1]) o h1).1.1 = .ok s ∧ s.erase = out := by
  rcases hp : plotParameters g dc a with x | p
  · unfold plotter plotterSetup
    rw [hp]
    constructor
    · intro hr; cases hr
    · rintro ⟨o, h1, s, hs, -⟩; cases hs
  · rw [plotterSetup_run it g dc E a h p hp]
    have hrun : (plotter it eps g dc geomP geomF co E a t0 t1).run h =
        let c := (if p.links.isSome then linkCountOf it (targetEvents it E).toFinset else pure 0 : StateM Heap ℕ).run h
        (match conePart p p.pastcones (-1) geomP co t0 (targetEvents it E), conePart p p.futurecones 1 geomF co t1 (targetEvents it E) with
         | .ok pc, .ok fc =>
          let D := (drawPart eps p co t0 (targetEvents it E) c.1).run c.2
          (match D.1 with
           | .error x => .error x
           | .ok (H, V, L) => match setAxis p.is3d p.axislim with
              | .error x => .error x
              | .ok ax => .ok ⟨pc, fc, p.links.map (fun _ => H), p.events.map (fun _ => V), p.labels.map (fun _ => L), ax⟩, D.2)
         | .error x, _ => (.error x, c.2)
         | _, .error x => (.error x, c.2)) := by
      unfold plotter
      rw [hp]
      simp only [StateT.run_bind]
      generalize ((if p.links.isSome then linkCountOf it (targetEvents it E).toFinset else pure 0 : StateM Heap ℕ).run h) = c
      obtain ⟨n, h1⟩ := c
      simp only [bind]
      rcases conePart p p.pastcones (-1) geomP co t0 (targetEvents it E) with x | pc
      · rfl
      · rcases conePart p p.futurecones 1 geomF co t1 (targetEvents it E) with x | fc
        · rfl
        · simp only [StateT.run, StateT.bind, bind]
          rcases (drawPart eps p co t0 (targetEvents it E) n h1) with ⟨x | ⟨H, V, L⟩, h2⟩
          · rfl
          · simp only
            rcases setAxis p.is3d p.axislim with x | ax <;> rfl
    rw [hrun]
    generalize ((if p.links.isSome then linkCountOf it (targetEvents it E).toFinset else pure 0 : StateM Heap ℕ).run h) = c
    obtain ⟨n, h1⟩ := c
    simp only
    rcases hfp : coneFade p p.pastcones with x | fp
    · rw [coneFade_error p _ x hfp]
      constructor
      · intro hr; cases hr
      · rintro ⟨o, h1, s, hs, -⟩; cases hs
    rcases hff : coneFade p p.futurecones with x | ff
    · rw [coneFade_error p _ x hff]
      constructor
      · rcases conePart p p.pastcones (-1) geomP co t0 (targetEvents it E) with _ | _ <;> (intro hr; cases hr)
      · rintro ⟨o, h1, s, hs, -⟩; cases hs
    rw [← coneCallPart_erase p _ fp hfp (-1) geomP co t0, ← coneCallPart_erase p _ ff hff 1 geomF co t1]
    simp only
    by_cases hk : p.timedepth.isSome ∧ p.links = none
    · rw [if_pos hk]
      constructor
      · intro hr
        exfalso
        revert hr
        rcases coneCallPart p.pastcones fp (-1) geomP co (.ok t0) (targetEvents it E) with ⟨x | pc, d⟩
        · intro hr; cases hr
        · rcases coneCallPart p.futurecones ff 1 geomF co (.ok t1) (targetEvents it E) with ⟨x | pc, d⟩
          · intro hr; cases hr
          · unfold drawPart
            obtain ⟨k1, k2⟩ := hk
            obtain ⟨depth, hd⟩ := Option.isSome_iff_exists.1 k1
            rw [hd, k2]
            intro hr; cases hr
      · rintro ⟨o, h1, s, hs, -⟩; cases hs
    · rw [if_neg hk]
      have e2 : ∀ o : PlotterObj γ, (∃ o' h1' s, ((.ok o : Except Err (PlotterObj γ)), h1) = (.ok o', h1') ∧ (plotterCall eps geomP geomF co (.list [t0, t1]) o' h1').1.1 = .ok s ∧
          s.erase = out) ↔ ∃ s, (plotterCall eps geomP geomF co (.list [t0, t1]) o h1).1.1 = .ok s ∧ s.erase = out := by
        intro o
        constructor
        · rintro ⟨o', h1', s, hs, h2⟩; cases hs; exact ⟨s, h2⟩
        · rintro ⟨s, h2⟩; exact ⟨o, h1, s, rfl, h2⟩
      rw [e2]
      unfold plotterCall
      simp only [CallTime.first, CallTime.last, List.getLast?_cons_cons, List.getLast?_singleton]
      have e3 : (setupObj (γ := γ) p (targetEvents it E) n fp ff).plotting = p := rfl
      have e4 : (setupObj (γ := γ) p (targetEvents it E) n fp ff).events = targetEvents it E := rfl
      have e5 : (setupObj (γ := γ) p (targetEvents it E) n fp ff).pastFade = fp := rfl
      have e6 : (setupObj (γ := γ) p (targetEvents it E) n fp ff).futureFade = ff := rfl
      simp only [e3, e4, e5, e6]
      rcases coneCallPart p.pastcones fp (-1) geomP co (.ok t0) (targetEvents it E) with ⟨x | pc, dp⟩
      · simp [Except.map]
      · rcases coneCallPart p.futurecones ff 1 geomF co (.ok t1) (targetEvents it E) with ⟨x | fc, df⟩
        · simp [Except.map]
        · simp only [Except.map]
          have hD := drawCall_erase (γ := γ) eps p (targetEvents it E) n fp ff co t0 h1 hk dp df
          simp only [e3, e4, e5, e6] at hD
          rw [hD]
          clear hD hrun
          generalize drawCall eps _ co (Except.ok t0) h1 = D
          obtain ⟨⟨x | ⟨H, V, L⟩, dd⟩, h2⟩ := D
          · simp [Except.map]
          · simp only [Except.map]
            rcases setAxis p.is3d p.axislim with x | ax
            · simp
            · simp only [Except.ok.injEq, exists_eq_left', StyledOut.erase, Option.map_map, Function.comp_def]

/-! ## later calls are fresh plots -/

theorem linkCall_same {h0 : Heap} (v : h0.Valid) (draw : EId → EId → Option LinkArt) (upd : LinkArt → PDict) :
    ∀ (ps : List (EId × EId)) (l : ℕ) (H : List (Option (LinkArt × PDict))) (d : PDict) (h h' : Heap), h0.SameOrder h → h.LinksExact → h0.SameOrder h' → h'.LinksExact →
      (linkCall draw upd ps l H d h).1 = (linkCall draw upd ps l H d h').1 := by
  intro ps
  induction ps with
  | nil => intro l H d h h' _ _ _ _; rfl
  | cons q ps ih =>
    obtain ⟨a, b⟩ := q
    intro l H d h h' so lx so' lx'
    obtain ⟨e1, s1, x1⟩ := isLinkedTo_answers v a b h so lx
    obtain ⟨e2, s2, x2⟩ := isLinkedTo_answers v a b h' so' lx'
    unfold linkCall
    revert e1 s1 x1 e2 s2 x2
    generalize (isLinkedTo a b).run h = r
    generalize (isLinkedTo a b).run h' = r'
    generalize decide (b ∈ h0.pastLinks a ∪ h0.futureLinks a) = c
    obtain ⟨r1, r2⟩ := r
    obtain ⟨r1', r2'⟩ := r'
    intro e1 s1 x1 e2 s2 x2
    simp only at e1 s1 x1 e2 s2 x2
    rw [e1, e2]
    cases c with
    | false => exact ih l H d r2 r2' s1 x1 s2 x2
    | true =>
      simp only
      cases draw a b with
      | none => exact ih (l + 1) H d r2 r2' s1 x1 s2 x2
      | some art =>
        simp only
        split_ifs with hl
        · exact ih _ _ _ r2 r2' s1 x1 s2 x2
        · rfl

theorem drawCall_same {h0 : Heap} (v : h0.Valid) (eps : ℝ) (o : PlotterObj γ) (co : EId → Point) (time : Except Err ℝ) (h h' : Heap) (so : h0.SameOrder h) (lx : h.LinksExact)
    (so' : h0.SameOrder h') (lx' : h'.LinksExact) : (drawCall eps o co time h).1 = (drawCall eps o co time h').1 := by
  unfold drawCall
  rcases ht : o.plotting.timedepth with _ | depth
  · simp only [ht]
    rcases hl : o.plotting.links with _ | d
    · rfl
    · simp only
      have := linkCall_same v (staticArt eps o.plotting.is3d o.plotting.dims co o.events) staticUpd (eventPairs o.events) 0 (List.replicate o.linkCount none) d h h' so lx so' lx'
      revert this
      rcases linkCall (staticArt eps o.plotting.is3d o.plotting.dims co o.events) staticUpd (eventPairs o.events) 0 (List.replicate o.linkCount none) d h with ⟨⟨x | H, e⟩, k⟩ <;>
      rcases linkCall (staticArt eps o.plotting.is3d o.plotting.dims co o.events) staticUpd (eventPairs o.events) 0 (List.replicate o.linkCount none) d h' with ⟨⟨x | H', e'⟩, k'⟩ <;>
      (intro hh; cases hh; try rfl)
  · simp only [ht]
    by_cases hev : o.events = []
    · rw [if_pos hev, if_pos hev]
    · rw [if_neg hev, if_neg hev]
      rcases time with x | t
      · rfl
      · rcases o.dynEvents with _ | fe
        · rfl
        · rcases o.dynLinks with _ | fl
          · rfl
          · simp only
            have := linkCall_same v (dynamicArt fe fl depth t o.plotting.dims co) dynamicUpd (eventPairs o.events) 0 (List.replicate o.linkCount none)
              (o.plotting.links.getD []) h h' so lx so' lx'
            revert this
            rcases linkCall (dynamicArt fe fl depth t o.plotting.dims co) dynamicUpd (eventPairs o.events) 0 (List.replicate o.linkCount none)
              (o.plotting.links.getD []) h with ⟨⟨x | H, e⟩, k⟩ <;>
            rcases linkCall (dynamicArt fe fl depth t o.plotting.dims co) dynamicUpd (eventPairs o.events) 0 (List.replicate o.linkCount none)
              (o.plotting.links.getD []) h' with ⟨⟨x | H', e'⟩, k'⟩ <;>
            (intro hh; cases hh; try rfl)

theorem plotterCall_same {h0 : Heap} (v : h0.Valid) (eps : ℝ) (geomP geomF : Point → ℝ → Except Err (Option γ)) (co : EId → Point) (time : CallTime) (o : PlotterObj γ)
    (h h' : Heap) (so : h0.SameOrder h) (lx : h.LinksExact) (so' : h0.SameOrder h') (lx' : h'.LinksExact) :
    (plotterCall eps geomP geomF co time o h).1 = (plotterCall eps geomP geomF co time o h').1 := by
  unfold plotterCall
  simp only
  rcases (coneCallPart o.plotting.pastcones o.pastFade (-1) geomP co time.first o.events) with ⟨x | pc, dp⟩
  · rfl
  · rcases (coneCallPart o.plotting.futurecones o.futureFade 1 geomF co time.last o.events) with ⟨x | fc, df⟩
    · rfl
    · simp only
      rw [drawCall_same v eps _ co time.first h h' so lx so' lx']
      generalize drawCall eps _ co time.first h = D
      generalize drawCall eps _ co time.first h' = D'
      obtain ⟨⟨x | ⟨H, V, L⟩, dd⟩, h2⟩ := D'
      · rfl
      · simp only
        rcases setAxis o.plotting.is3d o.plotting.axislim with x | ax <;> rfl

/-- **C103, a call is a fresh plot.** Set up a plotting function, call it any number of times, change coordinates, and query the causet in any way that keeps the causal
order: a call then creates exactly the artists of a new plot of the events as they are now. -/
theorem C103_fresh {h0 : Heap} (v : h0.Valid) (it : Iter) (eps : ℝ) (g dc : Scheme) (geomP geomF : Point → ℝ → Except Err (Option γ)) (E : PlotTarget) (a : PlotArgs)
    (hs : Heap) (sos : h0.SameOrder hs) (lxs : hs.LinksExact) (o : PlotterObj γ) (hs' : Heap) (hset : (plotterSetup it g dc E a).run hs = (.ok o, hs'))
    (ss : List PlotStep) (hc : Heap) (co0 co : EId → Point) (t0 t1 : ℝ) (h : Heap) (so : h0.SameOrder h) (lx : h.LinksExact) (out : PlotOut γ) :
    ((plotter it eps g dc geomP geomF co E a t0 t1).run h).1 = .ok out ↔
      ∃ s, (plotterCall eps geomP geomF co (.list [t0, t1]) (plotRun eps geomP geomF ss (o, hc, co0)).1 h).1.1 = .ok s ∧ s.erase = out := by
  rw [C103_first, (C103_calls eps geomP geomF o ss hc co0 (.list [t0, t1]) h co).1]
  rcases hp : plotParameters g dc a with x | p
  · unfold plotterSetup at hset
    rw [hp] at hset
    cases hset
  rw [plotterSetup_run it g dc E a hs p hp] at hset
  rw [plotterSetup_run it g dc E a h p hp]
  have hans : h0.Answers (if p.links.isSome then linkCountOf it (targetEvents it E).toFinset else pure 0 : StateM Heap ℕ)
      (if p.links.isSome then ∑ e ∈ (targetEvents it E).toFinset, (h0.pastLinks e ∩ (targetEvents it E).toFinset).card else 0) := by
    split_ifs
    · exact linkCountOf_answers it v _
    · exact Answers.pure
  obtain ⟨a1, a2, a3⟩ := hans hs sos lxs
  obtain ⟨b1, b2, b3⟩ := hans h so lx
  revert hset a1 a2 a3 b1 b2 b3
  generalize ((if p.links.isSome then linkCountOf it (targetEvents it E).toFinset else pure 0 : StateM Heap ℕ).run hs) = c
  generalize ((if p.links.isSome then linkCountOf it (targetEvents it E).toFinset else pure 0 : StateM Heap ℕ).run h) = c'
  obtain ⟨n, k⟩ := c
  obtain ⟨n', k'⟩ := c'
  intro hset a1 a2 a3 b1 b2 b3
  simp only at hset a1 a2 a3 b1 b2 b3 ⊢
  have hn : n' = n := b1.trans a1.symm
  rw [hn]
  revert hset
  rcases coneFade p p.pastcones with x | fp
  · intro hset; cases hset
  rcases coneFade p p.futurecones with x | ff
  · intro hset; cases hset
  simp only
  split_ifs with hk
  · intro hset; cases hset
  · intro hset
    cases hset
    have := plotterCall_same v eps geomP geomF co (.list [t0, t1]) (setupObj (γ := γ) p (targetEvents it E) n fp ff) k' h b2 b3 so lx
    constructor
    · rintro ⟨o', h1', s, hs, h2, h3⟩
      cases hs
      rw [this] at h2
      exact ⟨s, h2, h3⟩
    · rintro ⟨s, h2, h3⟩
      exact ⟨_, k', s, rfl, by rw [this]; exact h2, h3⟩

/-! ## the argument `time` -/

/-- **C103, the time.** A float `t` means the same as `[t, t]` and as `[t]`. -/
theorem C103_time (eps : ℝ) (geomP geomF : Point → ℝ → Except Err (Option γ)) (co : EId → Point) (t : ℝ) (o : PlotterObj γ) (h : Heap) :
    plotterCall eps geomP geomF co (.float t) o h = plotterCall eps geomP geomF co (.list [t, t]) o h ∧
    plotterCall eps geomP geomF co (.list [t]) o h = plotterCall eps geomP geomF co (.list [t, t]) o h := ⟨rfl, rfl⟩

/-- **C103, only the first and the last entry** of a list of times have an effect. -/
theorem C103_time_ends (eps : ℝ) (geomP geomF : Point → ℝ → Except Err (Option γ)) (co : EId → Point) (t0 t1 : ℝ) (ts : List ℝ) (o : PlotterObj γ) (h : Heap) :
    plotterCall eps geomP geomF co (.list (t0 :: ts ++ [t1])) o h = plotterCall eps geomP geomF co (.list [t0, t1]) o h := by
  have h1 : CallTime.first (.list (t0 :: ts ++ [t1])) = CallTime.first (.list [t0, t1]) := rfl
  have h2 : CallTime.last (.list (t0 :: ts ++ [t1])) = CallTime.last (.list [t0, t1]) := by
    have h3 : (t0 :: ts ++ [t1]).getLast? = some t1 := by rw [List.getLast?_append]; rfl
    simp only [CallTime.last, h3, List.getLast?_cons_cons, List.getLast?_singleton]
  unfold plotterCall
  rw [h1, h2]

/-- **C103, an int as time.** An int is not accepted in the place of a float: every call that has to look at the time (with events and cones, or with events in dynamic mode)
raises TypeError. -/
theorem C103_int (eps : ℝ) (geomP geomF : Point → ℝ → Except Err (Option γ)) (co : EId → Point) (n : ℤ) (o : PlotterObj γ) (h : Heap) (hev : o.events ≠ [])
    (hu : o.plotting.pastcones.isSome ∨ o.plotting.futurecones.isSome ∨ o.plotting.timedepth.isSome) :
    (plotterCall eps geomP geomF co (.int n) o h).1.1 = .error .typeError := by
  obtain ⟨p, ev, m, fp, ff, de, dl, hd⟩ := o
  simp only at hev hu
  obtain ⟨e, es, rfl⟩ := List.exists_cons_of_ne_nil hev
  unfold plotterCall
  simp only [CallTime.first, CallTime.last]
  rcases hp : p.pastcones with _ | dp
  · simp only [coneCallPart]
    rcases hf : p.futurecones with _ | df
    · simp only
      rcases ht : p.timedepth with _ | depth
      · simp [hp, hf, ht] at hu
      · simp [drawCall, ht]
    · rfl
  · rfl

/-! ## the dictionary of handles -/

/-- what the successful calls of a history return, in order -/
noncomputable def plotOuts (eps : ℝ) (geomP geomF : Point → ℝ → Except Err (Option γ)) : List PlotStep → PlotterObj γ × Heap × (EId → Point) → List (StyledOut γ)
  | [], _ => []
  | .call t :: ss, (o, h, co) =>
    let r := plotterCall eps geomP geomF co t o h
    (match r.1.1 with | .ok s => [s] | .error _ => []) ++ plotOuts eps geomP geomF ss (r.1.2, r.2, co)
  | .change h co :: ss, (o, _, _) => plotOuts eps geomP geomF ss (o, h, co)

theorem plotterCall_handles (eps : ℝ) (geomP geomF : Point → ℝ → Except Err (Option γ)) (co : EId → Point) (time : CallTime) (o : PlotterObj γ) (h : Heap) :
    (plotterCall eps geomP geomF co time o h).1.2.handles = match (plotterCall eps geomP geomF co time o h).1.1 with | .ok s => some s | .error _ => o.handles := by
  unfold plotterCall
  simp only
  rcases (coneCallPart o.plotting.pastcones o.pastFade (-1) geomP co time.first o.events) with ⟨x | pc, dp⟩
  · rfl
  · rcases (coneCallPart o.plotting.futurecones o.futureFade 1 geomF co time.last o.events) with ⟨x | fc, df⟩
    · rfl
    · simp only
      generalize drawCall eps _ co time.first h = D
      obtain ⟨⟨x | ⟨H, V, L⟩, dd⟩, h2⟩ := D
      · rfl
      · simp only
        rcases setAxis o.plotting.is3d o.plotting.axislim with x | ax <;> rfl

/-- **C103, the dictionary of handles.** All calls return the same dictionary object: after any history it contains the artists of the last call that succeeded (a call that
raises an exception leaves it as it is). -/
theorem C103_handles (eps : ℝ) (geomP geomF : Point → ℝ → Except Err (Option γ)) : ∀ (ss : List PlotStep) (o : PlotterObj γ) (h : Heap) (co : EId → Point),
    (plotRun eps geomP geomF ss (o, h, co)).1.handles = ((plotOuts eps geomP geomF ss (o, h, co)).getLast?).or o.handles := by
  intro ss
  induction ss with
  | nil => intro o h co; rfl
  | cons s ss ih =>
    intro o h co
    cases s with
    | change h' co' => exact ih o h' co'
    | call t =>
      simp only [plotRun, plotOuts]
      rw [ih, plotterCall_handles]
      rcases (plotterCall eps geomP geomF co t o h).1.1 with x | out
      · rfl
      · simp only [List.singleton_append, List.getLast?_cons]
        rcases (plotOuts eps geomP geomF ss ((plotterCall eps geomP geomF co t o h).1.2, (plotterCall eps geomP geomF co t o h).2, co)).getLast? with _ | z <;> rfl

/-! ## links that are new since the set-up -/

theorem linkCall_short {h0 : Heap} (v : h0.Valid) (draw : EId → EId → Option LinkArt) (upd : LinkArt → PDict) (hdraw : ∀ a b, (draw a b).isSome) :
    ∀ (ps : List (EId × EId)) (l : ℕ) (H : List (Option (LinkArt × PDict))) (d : PDict) (h : Heap), h0.SameOrder h → h.LinksExact → l ≤ H.length →
      (if H.length < l + (ps.filter (fun q => decide (q.2 ∈ h0.pastLinks q.1 ∪ h0.futureLinks q.1))).length then (linkCall draw upd ps l H d h).1.1 = .error .indexError
       else ∃ H', (linkCall draw upd ps l H d h).1.1 = .ok H') := by
  intro ps
  induction ps with
  | nil => intro l H d h _ _ hl; rw [if_neg (by simpa using hl)]; exact ⟨H, rfl⟩
  | cons q ps ih =>
    obtain ⟨a, b⟩ := q
    intro l H d h so lx hl
    obtain ⟨e1, s1, x1⟩ := isLinkedTo_answers v a b h so lx
    have hu : linkCall draw upd ((a, b) :: ps) l H d h = match (isLinkedTo a b).run h with
      | (true, h1) => match draw a b with
        | none => linkCall draw upd ps (l + 1) H d h1
        | some art =>
          if l < H.length then linkCall draw upd ps (l + 1) (H.set l (some (art, dictUpdate d (upd art)))) (dictUpdate d (upd art)) h1
          else ((.error .indexError, dictUpdate d (upd art)), h1)
      | (false, h1) => linkCall draw upd ps l H d h1 := by rw [linkCall]; rfl
    rw [hu]
    revert e1 s1 x1
    generalize (isLinkedTo a b).run h = r
    obtain ⟨r1, r2⟩ := r
    intro e1 s1 x1
    simp only at e1 s1 x1
    subst e1
    by_cases hm : b ∈ h0.pastLinks a ∪ h0.futureLinks a
    · obtain ⟨art, hart⟩ := Option.isSome_iff_exists.1 (hdraw a b)
      simp only [List.filter_cons, hm, decide_true, if_true, List.length_cons, hart]
      by_cases hlt : l < H.length
      · rw [if_pos hlt]
        have := ih (l + 1) (H.set l (some (art, dictUpdate d (upd art)))) (dictUpdate d (upd art)) r2 s1 x1 (by simpa using hlt)
        rw [List.length_set] at this
        convert this using 2
        omega
      · rw [if_neg hlt, if_pos (by omega)]
    · simp only [List.filter_cons, hm, decide_false, Bool.false_eq_true, if_false]
      exact ih l H d r2 s1 x1 hl

/-- **C103, new links.** The number of link handles is the number of links at the time of the set-up. If events have been related since then, a call (in static mode, with
links, without cones) raises IndexError exactly if there are now more links than there were at the set-up. -/
theorem C103_stale {h : Heap} (v : h.Valid) (lx : h.LinksExact) (eps : ℝ) (geomP geomF : Point → ℝ → Except Err (Option γ)) (co : EId → Point) (time : CallTime)
    (o : PlotterObj γ) (hpc : o.plotting.pastcones = none) (hfc : o.plotting.futurecones = none) (hl : o.plotting.links.isSome) (hs : o.plotting.timedepth = none)
    (ax : List (String × (ℝ × ℝ))) (hax : setAxis o.plotting.is3d o.plotting.axislim = .ok ax) :
    ((plotterCall eps geomP geomF co time o h).1.1 = .error .indexError ↔ o.linkCount < (linkedPairs h o.events).length) ∧
    ((∃ s, (plotterCall eps geomP geomF co time o h).1.1 = .ok s) ↔ (linkedPairs h o.events).length ≤ o.linkCount) := by
  obtain ⟨d, hd⟩ := Option.isSome_iff_exists.1 hl
  have key := linkCall_short v (staticArt eps o.plotting.is3d o.plotting.dims co o.events) staticUpd (fun _ _ => rfl) (eventPairs o.events) 0
    (List.replicate o.linkCount none) d h (SameOrder.refl h) lx (Nat.zero_le _)
  rw [linkedPairs_eq v, List.length_replicate, Nat.zero_add] at key
  unfold plotterCall
  simp only [hpc, hfc, coneCallPart]
  unfold drawCall
  simp only [hs, hd]
  revert key
  by_cases hlt : o.linkCount < (linkedPairs h o.events).length
  · rw [if_pos hlt]
    rcases linkCall (staticArt eps o.plotting.is3d o.plotting.dims co o.events) staticUpd (eventPairs o.events) 0 (List.replicate o.linkCount none) d h with ⟨⟨x | H, e⟩, k⟩
    · intro key
      simp only [Except.error.injEq] at key
      simp [key, hlt]
    · intro key; cases key
  · rw [if_neg hlt]
    rcases linkCall (staticArt eps o.plotting.is3d o.plotting.dims co o.events) staticUpd (eventPairs o.events) 0 (List.replicate o.linkCount none) d h with ⟨⟨x | H, e⟩, k⟩
    · rintro ⟨_, hh⟩; cases hh
    · rintro -
      simp only [hax]
      exact ⟨iff_of_false (fun hh => by cases hh) hlt, iff_of_true ⟨_, rfl⟩ (not_lt.1 hlt)⟩

end

/-! ## the two refutations, and cases that meet the hypotheses -/

theorem exChain2And1_setupCount : (linkCountOf Iter.asc {1, 2}).run exChain2And1 = (0, (exChain2And1.link 1).link 2) := rfl

/-- the default arguments: a static plot with links and events, without cones -/
theorem defaults_params : ∃ p, plotParameters (globalAfter []) defaultColors {} = .ok p ∧ p.pastcones = none ∧ p.futurecones = none ∧ p.links.isSome ∧ p.events.isSome ∧ p.timedepth = none ∧
    ∃ ax, setAxis p.is3d p.axislim = .ok ax := by
  obtain ⟨p, hp⟩ := (C79_defaults [] {} (by simp)).2.2 ⟨Or.inl rfl, .unset, rfl⟩
  obtain ⟨-, -, -, hax, h1, -, -, -, s1, s2, s3, s4, -⟩ := C79_parameters _ _ (globalAfter_dict []) {} ⟨trivial, trivial, trivial, trivial, trivial⟩ p hp
  refine ⟨p, hp, s1.1 rfl, s2.1 rfl, Option.isSome_iff_ne_none.2 (s3.none_iff.2 (by simp)), Option.isSome_iff_ne_none.2 (s4.none_iff.2 (by simp)), h1, ?_⟩
  have hu : plotAxislim ({} : PlotArgs) = .ok .unset := rfl
  rw [hu] at hax
  simp only [Except.ok.injEq] at hax
  exact ⟨[], by rw [← hax]; rfl⟩

/-- **C103, new links, refuted.** Set up a plotting function (default arguments) for two unlinked events of a causet, then merge their causets so that they become linked: the
plotting function raises IndexError, although a new plot of the same events (in a consistent state, with exact link memory) succeeds. -/
theorem C103_stale_refuted : ∃ (h h' : Heap) (o : PlotterObj Unit) (co : EId → Point), LinkReachable h ∧
    (plotterSetup Iter.asc (globalAfter []) defaultColors (.list [1, 2]) {}).run h = (.ok o, h') ∧
    (∃ s, (plotterCall (1 / 10 ^ 7) (fun _ _ => .ok none) (fun _ _ => .ok none) co (.float 0) o h').1.1 = .ok s) ∧
    (∀ it, (plotterCall (1 / 10 ^ 7) (fun _ _ => .ok none) (fun _ _ => .ok none) co (.float 0) o (merge it {0, 1} {2} false h').2).1.1 = .error .indexError ∧
      (merge it {0, 1} {2} false h').2.Valid ∧ (merge it {0, 1} {2} false h').2.LinksExact ∧
      ∃ out, ((plotter Iter.asc (1 / 10 ^ 7) (globalAfter []) defaultColors (fun _ _ => .ok none) (fun _ _ => .ok none) co (.list [1, 2]) {} 0 0).run
        (merge it {0, 1} {2} false h').2).1 = .ok (out : PlotOut Unit)) := by
  obtain ⟨p, hp, h1, h2, h3, -, h5, ax, h6⟩ := defaults_params
  have hset : (plotterSetup Iter.asc (globalAfter []) defaultColors (.list [1, 2]) {}).run exChain2And1 =
      (.ok (setupObj (γ := Unit) p [1, 2] 0 none none), (exChain2And1.link 1).link 2) := by
    rw [plotterSetup_run _ _ _ _ _ _ p hp]
    have ht : (targetEvents Iter.asc (.list [1, 2])).toFinset = {1, 2} := rfl
    simp only [h1, h2, coneFade, h3, if_true, ht, exChain2And1_setupCount, h5]
    rfl
  have hr : LinkReachable ((exChain2And1.link 1).link 2) := .link _ _ (.link _ _ exChain2And1_reach)
  have hlt : ∀ a b, ((exChain2And1.link 1).link 2).Lt a b ↔ a = 0 ∧ b = 1 := exChain2And1_lt
  have hx : ∀ it, (merge it {0, 1} {2} false ((exChain2And1.link 1).link 2)).2.LinksExact := by
    rw [C18_always_iff hr.valid hr.linksExact _ _ exChain2And1_closed.1 exChain2And1_closed.2 (by decide) (by simp) (by simp)]
    constructor
    · intro p hp hl x
      rw [hlt]
      have : ((exChain2And1.link 1).link 2).hasBeenLinked 0 = false := by decide
      rintro ⟨rfl, -⟩
      rw [this] at hl; cases hl
    · intro f hf _ x
      rw [hlt]
      simp only [Finset.mem_singleton] at hf
      omega
  refine ⟨exChain2And1, (exChain2And1.link 1).link 2, setupObj p [1, 2] 0 none none, fun _ _ => 0, exChain2And1_reach, hset, ?_, fun it => ?_⟩
  · refine (C103_stale hr.valid hr.linksExact _ _ _ _ _ _ h1 h2 h3 h5 ax h6).2.2 (le_of_eq ?_)
    have : linkedPairs ((exChain2And1.link 1).link 2) [1, 2] = [] := by
      rw [← linkedPairs_eq hr.valid]; decide
    exact congrArg List.length this
  · obtain ⟨h', e, v', hl', -, -⟩ := C17_merge it hr.valid {0, 1} {2} (by decide) (by decide) exChain2And1_closed.1 exChain2And1_closed.2 (by decide)
    have hx' := hx it
    rw [e] at hx' ⊢
    simp only at hx' ⊢
    have hc : Covers h'.Lt 1 2 := by
      refine ⟨(hl' 1 2).2 (Or.inr (by decide)), fun c => ?_⟩
      rw [hl', hl', hlt, hlt]
      simp
      omega
    refine ⟨?_, v', hx', ?_⟩
    · refine (C103_stale v' hx' _ _ _ _ _ _ h1 h2 h3 h5 ax h6).1.2 ?_
      have : linkedPairs h' [1, 2] = [(1, 2)] := by simp [linkedPairs, eventPairs, test, hc]
      exact (congrArg List.length this).symm ▸ Nat.zero_lt_one
    · have := (C57_static Iter.asc (1 / 10 ^ 7) (globalAfter []) defaultColors (γ := Unit) (fun _ _ => .ok none) (fun _ _ => .ok none) (fun _ _ => 0) (.list [1, 2]) {} 0 0 v'
        (by decide) p hp none none (by rw [h1]; rfl) (by rw [h2]; rfl) h5 ax h6) h' (SameOrder.refl _) hx'
      exact ⟨_, this.1⟩

/-- **C103, the returned dictionary, refuted.** The dictionary that a call returns does not keep its contents: it is the dictionary `_h` that the next call fills with its own
artists. Set up a plot of one event, call the plotting function, move the event, call it again: the dictionary returned by the first call contains the artists of the second. -/
theorem C103_dict_refuted : ∃ (o o1 o2 : PlotterObj Unit) (s1 s2 : StyledOut Unit) (h : Heap) (co co' : EId → Point), LinkReachable h ∧
    (plotterSetup Iter.asc (globalAfter []) defaultColors (.list [2]) {}).run exChain2And1 = (.ok o, h) ∧
    (plotterCall (1 / 10 ^ 7) (fun _ _ => .ok none) (fun _ _ => .ok none) co (.float 0) o h).1 = (.ok s1, o1) ∧ o1.handles = some s1 ∧
    (plotterCall (1 / 10 ^ 7) (fun _ _ => .ok none) (fun _ _ => .ok none) co' (.float 0) o1 h).1 = (.ok s2, o2) ∧ o2.handles = some s2 ∧ s1 ≠ s2 := by
  obtain ⟨p, hp, h1, h2, h3, h4, h5, ax, h6⟩ := defaults_params
  have hr : LinkReachable (exChain2And1.link 2) := .link _ _ exChain2And1_reach
  have hc : (linkCountOf Iter.asc {2}).run exChain2And1 = (0, exChain2And1.link 2) := rfl
  have hset : (plotterSetup Iter.asc (globalAfter []) defaultColors (.list [2]) {}).run exChain2And1 =
      (.ok (setupObj (γ := Unit) p [2] 0 none none), exChain2And1.link 2) := by
    rw [plotterSetup_run _ _ _ _ _ _ p hp]
    have ht : (targetEvents Iter.asc (.list [2])).toFinset = {2} := rfl
    simp only [h1, h2, coneFade, h3, if_true, ht, hc, h5]
    rfl
  have hcall : ∀ c : EId → Point, ∃ s, (plotterCall (1 / 10 ^ 7) (fun _ _ => .ok none) (fun _ _ => .ok none) c (.float 0) (setupObj (γ := Unit) p [2] 0 none none)
      (exChain2And1.link 2)).1.1 = .ok s ∧ s.erase.events = some [some ⟨2, axesOf p.dims (c 2), none⟩] := by
    intro c
    have hans := (C57_static Iter.asc (1 / 10 ^ 7) (globalAfter []) defaultColors (γ := Unit) (fun _ _ => .ok none) (fun _ _ => .ok none) c (.list [2]) {} 0 0
      exChain2And1_reach.valid (by decide) p hp none none (by rw [h1]; rfl) (by rw [h2]; rfl) h5 ax h6) exChain2And1 (SameOrder.refl _) exChain2And1_reach.linksExact
    obtain ⟨o', h1', s, hs, h2', h3'⟩ := (C103_first _ _ _ _ _ _ _ _ _ _ _ _ _).1 hans.1
    rw [hset] at hs
    cases hs
    refine ⟨s, h2', ?_⟩
    rw [h3']
    obtain ⟨ed, hed⟩ := Option.isSome_iff_exists.1 h4
    simp [hed, targetEvents]
  have hdims : p.dims = [1, 0] := (C79_parameters _ _ (globalAfter_dict []) {} ⟨trivial, trivial, trivial, trivial, trivial⟩ p hp).2.1
  obtain ⟨s1, e1, f1⟩ := hcall (fun _ _ => 0)
  obtain ⟨s2, e2, f2⟩ := hcall (fun _ _ => 1)
  rw [← (C103_calls _ _ _ (setupObj (γ := Unit) p [2] 0 none none) [.call (.float 0)] (exChain2And1.link 2) (fun _ _ => 0) (.float 0) _ _).1] at e2
  have k1 := plotterCall_handles (1 / 10 ^ 7) (fun _ _ => .ok none) (fun _ _ => .ok none) (fun _ _ => 0) (.float 0) (setupObj (γ := Unit) p [2] 0 none none) (exChain2And1.link 2)
  rw [e1] at k1
  have k2 := plotterCall_handles (1 / 10 ^ 7) (fun _ _ => .ok none) (fun _ _ => .ok none) (fun _ _ => 1) (.float 0)
    (plotRun (1 / 10 ^ 7) (fun _ _ => .ok none) (fun _ _ => .ok none) [.call (.float 0)] (setupObj (γ := Unit) p [2] 0 none none, exChain2And1.link 2, fun _ _ => 0)).1 (exChain2And1.link 2)
  rw [e2] at k2
  refine ⟨_, _, _, s1, s2, exChain2And1.link 2, fun _ _ => 0, fun _ _ => 1, hr, hset, Prod.ext e1 rfl, k1, Prod.ext e2 rfl, k2, ?_⟩
  rintro rfl
  rw [f1, hdims] at f2
  simp [axesOf] at f2

/-- C103: the plot of the diamond with a slider — set up with the default arguments, called at three times — meets the hypotheses. -/
example (calls : List String) (co : EId → Point) (t : ℝ) (ts : List ℝ) : ∃ (o : PlotterObj Unit) (h1 : Heap),
    (plotterSetup Iter.asc (globalAfter calls) defaultColors (.list [0, 1, 2, 3]) {}).run exDiamond = (.ok o, h1) ∧
    ∃ s, (plotterCall (1 / 10 ^ 7) (fun _ _ => .ok none) (fun _ _ => .ok none) co (.list [t, t])
      (plotRun (1 / 10 ^ 7) (fun _ _ => .ok none) (fun _ _ => .ok none) (ts.map (fun t => .call (.float t))) (o, h1, co)).1 h1).1.1 = .ok s := by
  obtain ⟨out, ho⟩ := (C78_iff (γ := Unit) Iter.asc (1 / 10 ^ 7) (globalAfter calls) defaultColors (globalAfter_dict calls) (fun _ _ => .ok none) (fun _ _ => .ok none)
    (fun _ _ => ⟨_, rfl⟩) (fun _ _ => ⟨_, rfl⟩) co (.list [0, 1, 2, 3]) {} ⟨trivial, trivial, trivial, trivial, trivial⟩ t t exDiamond_reach (by decide)).2
    (plottable_defaults calls co _ t t)
  obtain ⟨o, h1, s, hs, h2, -⟩ := (C103_first _ _ _ _ _ _ _ _ _ _ _ _ _).1 ho
  exact ⟨o, h1, hs, s, by rw [(C103_calls _ _ _ _ _ _ _ _ _ _).1]; exact h2⟩

end Causets
