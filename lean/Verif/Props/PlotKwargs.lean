import Verif.Props.PlotCalls

/-! # C103 — the keyword arguments of every artist (causetplotting.py:441-681) -/

namespace Causets
open Heap

section
variable {γ : Type}

theorem coneCall_kw (fade : Option (ℝ → ℝ)) (sgn : ℝ) (geom : Point → ℝ → Except Err (Option γ)) (co : EId → Point) (time : Except Err ℝ) (d0 : PDict) :
    ∀ (es : List EId) (d : PDict) (l : List (γ × PDict)), OverK ["alpha"] d0 d → (coneCall fade sgn geom co time es d).1 = .ok l →
      ∀ q ∈ l, ∃ (f : ℝ → ℝ) (t : ℝ) (e : EId), fade = some f ∧ time = .ok t ∧ e ∈ es ∧ 0 < sgn * (t - co e 0) ∧ 0 < f (sgn * (t - co e 0)) ∧
        geom (co e) t = .ok (some q.1) ∧ q.2 = dictUpdate d0 [("alpha", .other (.num (f (sgn * (t - co e 0)))))] := by
  intro es
  induction es with
  | nil =>
    intro d l hd h q hq
    simp only [coneCall, Except.ok.injEq] at h
    rw [← h] at hq; simp at hq
  | cons e es ih =>
    intro d l hd h q hq
    have lift : (∃ (f : ℝ → ℝ) (t : ℝ) (e : EId), fade = some f ∧ time = .ok t ∧ e ∈ es ∧ 0 < sgn * (t - co e 0) ∧ 0 < f (sgn * (t - co e 0)) ∧
        geom (co e) t = .ok (some q.1) ∧ q.2 = dictUpdate d0 [("alpha", .other (.num (f (sgn * (t - co e 0)))))]) →
        ∃ (f : ℝ → ℝ) (t : ℝ) (e' : EId), fade = some f ∧ time = .ok t ∧ e' ∈ e :: es ∧ 0 < sgn * (t - co e' 0) ∧ 0 < f (sgn * (t - co e' 0)) ∧
        geom (co e') t = .ok (some q.1) ∧ q.2 = dictUpdate d0 [("alpha", .other (.num (f (sgn * (t - co e' 0)))))] := by
      rintro ⟨f, t, e', a1, a2, a3, a4⟩
      exact ⟨f, t, e', a1, a2, List.mem_cons_of_mem _ a3, a4⟩
    unfold coneCall at h
    cases time with
    | error x => cases h
    | ok t =>
      simp only at h
      by_cases h1 : sgn * (t - co e 0) ≤ 0
      · rw [if_pos h1] at h; exact lift (ih d l hd h q hq)
      · rw [if_neg h1] at h
        cases fade with
        | none => cases h
        | some f =>
          simp only at h
          by_cases h2 : f (sgn * (t - co e 0)) ≤ 0
          · rw [if_pos h2] at h; exact lift (ih d l hd h q hq)
          · rw [if_neg h2] at h
            have eu := hd.update (by simp) (u := [("alpha", .other (.num (f (sgn * (t - co e 0)))))]) rfl
            rw [eu] at h
            have ho : OverK ["alpha"] d0 (dictUpdate d0 [("alpha", .other (.num (f (sgn * (t - co e 0)))))]) := Or.inr ⟨_, rfl, rfl⟩
            have ih' := fun l => ih _ l ho
            rcases hg : geom (co e) t with x | _ | y
            · rw [hg] at h; cases h
            · rw [hg] at h; exact lift (ih' l h q hq)
            · rw [hg] at h
              simp only at h
              revert ih' h
              rcases coneCall (some f) sgn geom co (.ok t) es (dictUpdate d0 [("alpha", .other (.num (f (sgn * (t - co e 0)))))]) with ⟨x | l', d2⟩
              · intro _ h; cases h
              · intro ih' h
                simp only [Except.ok.injEq] at h
                rw [← h] at hq
                rcases List.mem_cons.1 hq with rfl | hq
                · exact ⟨f, t, e, rfl, rfl, List.mem_cons_self, not_le.1 h1, not_le.1 h2, hg, rfl⟩
                · exact lift (ih' l' rfl q hq)

theorem linkCall_kw (draw : EId → EId → Option LinkArt) (upd : LinkArt → PDict) (K : List String) (hK : K.Nodup) (hu : ∀ art, (upd art).map Prod.fst = K) (d0 : PDict) :
    ∀ (ps : List (EId × EId)) (l : ℕ) (H : List (Option (LinkArt × PDict))) (d : PDict) (h : Heap) (H' : List (Option (LinkArt × PDict))), OverK K d0 d →
      (linkCall draw upd ps l H d h).1.1 = .ok H' → (∀ art d', some (art, d') ∈ H → d' = dictUpdate d0 (upd art)) →
      ∀ art d', some (art, d') ∈ H' → d' = dictUpdate d0 (upd art) := by
  intro ps
  induction ps with
  | nil =>
    intro l H d h H' hd he hH
    simp only [linkCall, Except.ok.injEq] at he
    rw [← he]; exact hH
  | cons q ps ih =>
    obtain ⟨a, b⟩ := q
    intro l H d h H' hd he hH
    unfold linkCall at he
    revert he
    rcases (isLinkedTo a b).run h with ⟨_ | _, h1⟩
    · intro he; exact ih l H d h1 H' hd he hH
    · simp only
      cases draw a b with
      | none => intro he; exact ih (l + 1) H d h1 H' hd he hH
      | some art =>
        simp only
        rw [hd.update hK (hu art)]
        have ho : OverK K d0 (dictUpdate d0 (upd art)) := Or.inr ⟨_, hu art, rfl⟩
        split_ifs with hl
        · intro he
          refine ih _ _ _ _ H' ho he ?_
          intro art' d' hm
          rcases List.mem_or_eq_of_mem_set hm with hm | hm
          · exact hH _ _ hm
          · cases hm; rfl
        · intro he; cases he

theorem eventCall_kw (f : ℝ → ℝ) (time : ℝ) (dims : List ℤ) (co : EId → Point) (d0 : PDict) :
    ∀ (es : List EId) (d : PDict), OverK ["alpha"] d0 d → ∀ art d', some (art, d') ∈ (eventCall f time dims co es d).1 →
      ∃ v, art.alpha = some v ∧ d' = dictUpdate d0 [("alpha", .other (.num v))] := by
  intro es
  induction es with
  | nil => intro d hd art d' h; simp [eventCall] at h
  | cons e es ih =>
    intro d hd art d' h
    unfold eventCall at h
    simp only at h
    by_cases h1 : f (co e 0 - time) ≤ 0
    · rw [if_pos h1] at h
      simp only [List.mem_cons, reduceCtorEq, false_or] at h
      exact ih d hd art d' h
    · rw [if_neg h1] at h
      rw [hd.update (by simp) (u := [("alpha", .other (.num (f (co e 0 - time))))]) rfl] at h
      simp only [List.mem_cons] at h
      rcases h with h | h
      · cases h; exact ⟨_, rfl, rfl⟩
      · exact ih _ (Or.inr ⟨_, rfl, rfl⟩) art d' h

/-- what the links, events and labels are drawn with -/
theorem drawCall_kw (eps : ℝ) (o : PlotterObj γ) (co : EId → Point) (time : Except Err ℝ) (h : Heap) (H : List (Option (LinkArt × PDict)))
    (V L : List (Option (EventArt × PDict))) (he : (drawCall eps o co time h).1.1 = .ok (H, V, L)) :
    (∀ art d, some (art, d) ∈ H → d = dictUpdate (o.plotting.links.getD []) (if o.plotting.timedepth.isSome then dynamicUpd art else staticUpd art)) ∧
    (∀ art d, some (art, d) ∈ V → ∃ d0, o.plotting.events = some d0 ∧
      if o.plotting.timedepth.isSome then ∃ v, art.alpha = some v ∧ d = dictUpdate d0 [("alpha", .other (.num v))] else d = d0) ∧
    (∀ art d, some (art, d) ∈ L → o.plotting.labels = some d) := by
  unfold drawCall at he
  simp only at he
  rcases ht : o.plotting.timedepth with _ | depth
  · rw [ht] at he
    simp only [Option.isSome_none, Bool.false_eq_true, if_false]
    have key : ∀ (r : (Except Err (List (Option (LinkArt × PDict))) × Option PDict) × Heap),
        (∀ H', r.1.1 = .ok H' → ∀ art d, some (art, d) ∈ H' → d = dictUpdate (o.plotting.links.getD []) (staticUpd art)) →
        ((match r with
          | ((.error x, ld), h1) => ((Except.error x, ld, o.plotting.events), h1)
          | ((.ok H, ld), h1) =>
            ((Except.ok (H, o.events.map (fun a => o.plotting.events.map (fun d => ((⟨a, axesOf o.plotting.dims (co a), none⟩ : EventArt), d))),
              o.events.map (fun a => o.plotting.labels.map (fun d => ((⟨a, axesOf o.plotting.dims (co a), none⟩ : EventArt), d)))), ld, o.plotting.events), h1) :
            (Except Err (List (Option (LinkArt × PDict)) × List (Option (EventArt × PDict)) × List (Option (EventArt × PDict))) × Option PDict × Option PDict) × Heap)).1.1
          = .ok (H, V, L) →
        (∀ art d, some (art, d) ∈ H → d = dictUpdate (o.plotting.links.getD []) (staticUpd art)) ∧
        (∀ art d, some (art, d) ∈ V → ∃ d0, o.plotting.events = some d0 ∧ d = d0) ∧ (∀ art d, some (art, d) ∈ L → o.plotting.labels = some d) := by
      rintro ⟨⟨x | H', ld⟩, h1⟩ hr he
      · cases he
      · simp only [Except.ok.injEq, Prod.mk.injEq] at he
        obtain ⟨rfl, rfl, rfl⟩ := he
        refine ⟨hr _ rfl, ?_, ?_⟩
        · intro art d hm
          obtain ⟨a, -, ha⟩ := List.mem_map.1 hm
          rcases hp : o.plotting.events with _ | d0
          · rw [hp] at ha; simp at ha
          · rw [hp] at ha; simp only [Option.map_some, Option.some.injEq, Prod.mk.injEq] at ha; exact ⟨d0, rfl, ha.2.symm⟩
        · intro art d hm
          obtain ⟨a, -, ha⟩ := List.mem_map.1 hm
          rcases hp : o.plotting.labels with _ | d0
          · rw [hp] at ha; simp at ha
          · rw [hp] at ha; simp only [Option.map_some, Option.some.injEq, Prod.mk.injEq] at ha; rw [ha.2]
    refine key _ ?_ he
    intro H' hH'
    rcases hl : o.plotting.links with _ | d0
    · rw [hl] at hH'
      simp only [Except.ok.injEq] at hH'
      rw [← hH']; intro art d hm; have := List.eq_of_mem_replicate hm; cases this
    · rw [hl] at hH'
      simp only at hH'
      exact linkCall_kw _ staticUpd ["markevery"] (by simp) staticUpd_keys d0 _ _ _ _ _ H' (Or.inl rfl) hH'
        (fun art d hm => by (have := List.eq_of_mem_replicate hm; cases this))
  · rw [ht] at he
    simp only [Option.isSome_some, if_true]
    simp only at he
    by_cases hev : o.events = []
    · rw [if_pos hev] at he
      simp only [Except.ok.injEq, Prod.mk.injEq] at he
      obtain ⟨rfl, rfl, rfl⟩ := he
      exact ⟨fun art d hm => by (have := List.eq_of_mem_replicate hm; cases this), fun art d hm => by simp at hm, fun art d hm => by simp at hm⟩
    · rw [if_neg hev] at he
      rcases time with x | t
      · cases he
      · rcases hde : o.dynEvents with _ | fe
        · rw [hde] at he; cases he
        · rcases hdl : o.dynLinks with _ | fl
          · rw [hde, hdl] at he; cases he
          · rw [hde, hdl] at he
            simp only at he
            have hk := fun H' => linkCall_kw (dynamicArt fe fl depth t o.plotting.dims co) dynamicUpd _ (by simp) dynamicUpd_keys (o.plotting.links.getD [])
              (eventPairs o.events) 0 (List.replicate o.linkCount none) (o.plotting.links.getD []) h H' (Or.inl rfl)
            revert hk he
            rcases linkCall (dynamicArt fe fl depth t o.plotting.dims co) dynamicUpd (eventPairs o.events) 0 (List.replicate o.linkCount none)
              (o.plotting.links.getD []) h with ⟨⟨x | H', d'⟩, h'⟩
            · intro he; cases he
            · intro he hk
              simp only [Except.ok.injEq, Prod.mk.injEq] at he
              obtain ⟨rfl, rfl, rfl⟩ := he
              refine ⟨hk _ rfl (fun art d hm => by (have := List.eq_of_mem_replicate hm; cases this)), ?_, ?_⟩
              · intro art d hm
                rcases hp : o.plotting.events with _ | d0
                · rw [hp] at hm; simp at hm
                · rw [hp] at hm
                  simp only [Option.isSome_some, if_true, Option.getD_some] at hm
                  exact ⟨d0, rfl, eventCall_kw fe t _ co d0 _ d0 (Or.inl rfl) art d hm⟩
              · intro art d hm
                obtain ⟨a, -, ha⟩ := List.mem_map.1 hm
                split_ifs at ha
                rcases hp : o.plotting.labels with _ | d0
                · rw [hp] at ha; simp at ha
                · rw [hp] at ha; simp only [Option.map_some, Option.some.injEq, Prod.mk.injEq] at ha; rw [ha.2]

/-- **C103, keyword arguments.** In every successful call of a plotting function, every artist is created with the user's keyword arguments of its kind, in which only
its own values are replaced: `alpha` for a cone (positive), `alpha`, `linewidth` and `markevery` of this link in dynamic mode and `markevery` otherwise, `alpha` of this event in
dynamic mode and nothing otherwise; labels get the user's arguments. -/
theorem C103_kwargs (eps : ℝ) (geomP geomF : Point → ℝ → Except Err (Option γ)) (co : EId → Point) (time : CallTime) (o : PlotterObj γ) (h : Heap) (s : StyledOut γ)
    (hs : (plotterCall eps geomP geomF co time o h).1.1 = .ok s) :
    (∀ l ∈ s.pastcones, ∀ q ∈ l, ∃ d0, o.plotting.pastcones = some d0 ∧ ∃ v, 0 < v ∧ q.2 = dictUpdate d0 [("alpha", .other (.num v))]) ∧
    (∀ l ∈ s.futurecones, ∀ q ∈ l, ∃ d0, o.plotting.futurecones = some d0 ∧ ∃ v, 0 < v ∧ q.2 = dictUpdate d0 [("alpha", .other (.num v))]) ∧
    (∀ H ∈ s.links, ∀ art d, some (art, d) ∈ H → ∃ d0, o.plotting.links = some d0 ∧
      d = dictUpdate d0 (if o.plotting.timedepth.isSome then
        [("alpha", .other (.num (art.alpha.getD 0))), ("linewidth", .other (.num (art.width.getD 0))), ("markevery", .other (.nums (art.markevery.map (fun n => (n : ℝ)))))]
        else [("markevery", .other (.nums (art.markevery.map (fun n => (n : ℝ)))))])) ∧
    (∀ V ∈ s.events, ∀ art d, some (art, d) ∈ V → ∃ d0, o.plotting.events = some d0 ∧
      if o.plotting.timedepth.isSome then ∃ v, art.alpha = some v ∧ d = dictUpdate d0 [("alpha", .other (.num v))] else d = d0) ∧
    (∀ L ∈ s.labels, ∀ art d, some (art, d) ∈ L → o.plotting.labels = some d) := by
  have cone : ∀ (cones : Option PDict) (fade : Option (ℝ → ℝ)) (sgn : ℝ) (geom : Point → ℝ → Except Err (Option γ)) (tm : Except Err ℝ) (r : Option (List (γ × PDict))),
      (coneCallPart cones fade sgn geom co tm o.events).1 = .ok r → ∀ l ∈ r, ∀ q ∈ l, ∃ d0, cones = some d0 ∧ ∃ v, 0 < v ∧
        q.2 = dictUpdate d0 [("alpha", .other (.num v))] := by
    intro cones fade sgn geom tm r hr l hl q hq
    unfold coneCallPart at hr
    rcases cones with _ | d0
    · simp only [Except.ok.injEq] at hr; rw [← hr] at hl; simp at hl
    · simp only at hr
      have hk := fun l => coneCall_kw fade sgn geom co tm d0 o.events d0 l (Or.inl rfl)
      revert hr hk
      rcases coneCall fade sgn geom co tm o.events d0 with ⟨x | l', d'⟩
      · intro hr; cases hr
      · intro hr hk
        simp only [Except.ok.injEq] at hr
        rw [← hr] at hl
        cases hl
        obtain ⟨f, t, e, -, -, -, -, h5, -, h7⟩ := hk _ rfl q hq
        exact ⟨d0, rfl, _, h5, h7⟩
  have cp := fun r => cone o.plotting.pastcones o.pastFade (-1) geomP time.first r
  have cf := fun r => cone o.plotting.futurecones o.futureFade 1 geomF time.last r
  unfold plotterCall at hs
  simp only at hs
  revert cp cf hs
  generalize (coneCallPart o.plotting.pastcones o.pastFade (-1) geomP co time.first o.events) = P
  generalize (coneCallPart o.plotting.futurecones o.futureFade 1 geomF co time.last o.events) = F
  obtain ⟨x | pc, dp⟩ := P
  · intro hs; cases hs
  · obtain ⟨x | fc, df⟩ := F
    · intro hs; cases hs
    · intro hs cp cf
      simp only at hs
      have hk := drawCall_kw eps { o with plotting := { o.plotting with pastcones := dp, futurecones := df } } co time.first h
      revert hs hk
      generalize drawCall eps { o with plotting := { o.plotting with pastcones := dp, futurecones := df } } co time.first h = D
      obtain ⟨⟨x | ⟨H, V, L⟩, D1⟩, D2⟩ := D
      · intro hs; cases hs
      · intro hs hk
        simp only at hs
        rcases hax : setAxis o.plotting.is3d o.plotting.axislim with x | ax
        · rw [hax] at hs; cases hs
        · rw [hax] at hs
          simp only [Except.ok.injEq] at hs
          obtain ⟨k1, k2, k3⟩ := hk H V L rfl
          rw [← hs]
          refine ⟨fun l hl q hq => cp pc rfl l hl q hq, fun l hl q hq => cf fc rfl l hl q hq, ?_, ?_, ?_⟩
          · intro H' hH' art d hm
            rcases hl : o.plotting.links with _ | d0
            · rw [hl] at hH'; simp at hH'
            · rw [hl] at hH'
              simp only [Option.map_some, Option.mem_def, Option.some.injEq] at hH'
              subst hH'
              refine ⟨d0, rfl, ?_⟩
              have := k1 art d hm
              simp only [hl, Option.getD_some] at this
              rw [this]; rfl
          · intro V' hV' art d hm
            rcases hl : o.plotting.events with _ | d0
            · rw [hl] at hV'; simp at hV'
            · rw [hl] at hV'
              simp only [Option.map_some, Option.mem_def, Option.some.injEq] at hV'
              subst hV'
              have := k2 art d hm
              simpa only [hl] using this
          · intro L' hL' art d hm
            rcases hl : o.plotting.labels with _ | d0
            · rw [hl] at hL'; simp at hL'
            · rw [hl] at hL'
              simp only [Option.map_some, Option.mem_def, Option.some.injEq] at hL'
              subst hL'
              have := k3 art d hm
              simpa only [hl] using this

end

end Causets
