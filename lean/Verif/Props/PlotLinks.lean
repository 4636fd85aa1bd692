import Verif.Model.Plotting
import Verif.Props.MergeLink

/-! # C57 — one link artist for every link (causetplotting.py:473-632) -/

namespace Causets
open Heap

variable {h h0 : Heap}

theorem linkLoop_answers (v : h0.Valid) (draw : EId → EId → Option LinkArt) : ∀ (ps : List (EId × EId)) (done : List (Option LinkArt)) (n : ℕ),
    n = (ps.filter (fun q => decide (q.2 ∈ h0.pastLinks q.1 ∪ h0.futureLinks q.1))).length →
    h0.Answers (linkLoop draw ps done.length (done ++ List.replicate n none))
      (.ok (done ++ (ps.filter (fun q => decide (q.2 ∈ h0.pastLinks q.1 ∪ h0.futureLinks q.1))).map (fun q => draw q.1 q.2))) := by
  intro ps
  induction ps with
  | nil => intro done n hn; simp only [List.filter_nil, List.length_nil] at hn; subst hn; simpa [linkLoop] using Answers.pure
  | cons q ps ih =>
    obtain ⟨a, b⟩ := q
    intro done n hn
    rw [linkLoop]
    refine Answers.bind (isLinkedTo_answers v a b) ?_
    by_cases hl : b ∈ h0.pastLinks a ∪ h0.futureLinks a
    · simp only [List.filter_cons, hl, decide_true, if_true, List.length_cons, List.map_cons] at hn ⊢
      subst hn
      cases hd : draw a b with
      | none =>
        simp only
        have := ih (done ++ [none]) _ rfl
        simpa [List.replicate_succ, Answers] using this
      | some art =>
        simp only
        rw [if_pos (by simp)]
        have := ih (done ++ [some art]) _ rfl
        simpa [List.replicate_succ, Answers] using this
    · simp only [List.filter_cons, hl, decide_false, Bool.false_eq_true, if_false] at hn ⊢
      exact ih done n hn

theorem not_mem_pastLinks_self (v : h.Valid) (a : EId) : a ∉ h.pastLinks a := fun hm =>
  v.order.irrefl a ((mem_pastLinks v a a).1 hm).1

/-- the loop finds as many linked pairs as `LinkCountOf` counts -/
theorem length_linkedPairs (v : h.Valid) : ∀ (l : List EId), l.Nodup →
    ((eventPairs l).filter (fun q => decide (q.2 ∈ h.pastLinks q.1 ∪ h.futureLinks q.1))).length = ∑ e ∈ l.toFinset, (h.pastLinks e ∩ l.toFinset).card := by
  intro l
  induction l with
  | nil => intro _; rfl
  | cons a t ih =>
    intro hnd
    obtain ⟨hat, hnt⟩ := List.nodup_cons.1 hnd
    have hat' : a ∉ t.toFinset := by simpa using hat
    rw [eventPairs, List.filter_append, List.length_append, ih hnt, List.toFinset_cons, Finset.sum_insert hat']
    have h1 : (h.pastLinks a ∩ insert a t.toFinset) = h.pastLinks a ∩ t.toFinset := by
      ext x; simp only [Finset.mem_inter, Finset.mem_insert]
      constructor
      · rintro ⟨hx, rfl | hx'⟩
        · exact absurd hx (not_mem_pastLinks_self v _)
        · exact ⟨hx, hx'⟩
      · rintro ⟨hx, hx'⟩; exact ⟨hx, Or.inr hx'⟩
    have h2 : ∀ e ∈ t.toFinset, (h.pastLinks e ∩ insert a t.toFinset).card = (h.pastLinks e ∩ t.toFinset).card + if e ∈ h.futureLinks a then 1 else 0 := by
      intro e _
      have e1 : e ∈ h.futureLinks a ↔ a ∈ h.pastLinks e := by rw [mem_futureLinks v, mem_pastLinks v]
      by_cases hm : a ∈ h.pastLinks e
      · rw [if_pos (e1.2 hm), Finset.inter_insert_of_mem hm, Finset.card_insert_of_notMem (by simp [hat])]
      · rw [if_neg (fun hc => hm (e1.1 hc)), Finset.inter_insert_of_notMem hm, add_zero]
    rw [h1, Finset.sum_congr rfl h2, Finset.sum_add_distrib, ← Finset.card_filter]
    have h3 : ((t.map (fun b => (a, b))).filter (fun q => decide (q.2 ∈ h.pastLinks q.1 ∪ h.futureLinks q.1))).length
        = (t.toFinset.filter (fun b => b ∈ h.pastLinks a ∪ h.futureLinks a)).card := by
      rw [List.filter_map, List.length_map]
      have : (t.filter (fun b => decide (b ∈ h.pastLinks a ∪ h.futureLinks a))).toFinset = t.toFinset.filter (fun b => b ∈ h.pastLinks a ∪ h.futureLinks a) := by
        ext x; simp
      rw [← this, List.toFinset_card_of_nodup (hnt.filter _)]
      rfl
    have h4 : t.toFinset.filter (fun b => b ∈ h.pastLinks a ∪ h.futureLinks a) = (h.pastLinks a ∩ t.toFinset) ∪ t.toFinset.filter (fun b => b ∈ h.futureLinks a) := by
      ext x; simp only [Finset.mem_filter, Finset.mem_union, Finset.mem_inter]; tauto
    have h5 : Disjoint (h.pastLinks a ∩ t.toFinset) (t.toFinset.filter (fun b => b ∈ h.futureLinks a)) := by
      rw [Finset.disjoint_left]
      intro x hx hx'
      have l1 := ((mem_pastLinks v x a).1 (Finset.mem_inter.1 hx).1).1
      have l2 := ((mem_futureLinks v x a).1 (Finset.mem_filter.1 hx').2).1
      exact v.order.irrefl x (v.order.trans _ _ _ l1 l2)
    rw [h3, h4, Finset.card_union_of_disjoint h5]
    omega

/-- the pairs of events that are linked in the order of `h`, earlier entry of the list first -/
noncomputable def linkedPairs (h : Heap) (events : List EId) : List (EId × EId) :=
  (eventPairs events).filter (fun q => test (Covers h.Lt q.1 q.2 ∨ Covers h.Lt q.2 q.1))

theorem linkedPairs_eq (v : h.Valid) (events : List EId) :
    (eventPairs events).filter (fun q => decide (q.2 ∈ h.pastLinks q.1 ∪ h.futureLinks q.1)) = linkedPairs h events := by
  unfold linkedPairs
  congr 1
  funext q
  rw [Bool.eq_iff_iff]
  simp only [decide_eq_true_eq, Finset.mem_union, mem_pastLinks v, mem_futureLinks v, test]
  tauto

/-- the loop with the list of handles as set up by `Plotter` -/
theorem linkLoop_all (it : Iter) (v : h0.Valid) (draw : EId → EId → Option LinkArt) (events : List EId) (hnd : events.Nodup) (n : ℕ)
    (hn : n = ∑ e ∈ events.toFinset, (h0.pastLinks e ∩ events.toFinset).card) :
    h0.Answers (linkLoop draw (eventPairs events) 0 (List.replicate n none)) (.ok ((linkedPairs h0 events).map (fun q => draw q.1 q.2))) := by
  have := linkLoop_answers v draw (eventPairs events) [] n (by rw [hn, length_linkedPairs v events hnd])
  rw [linkedPairs_eq v] at this
  simpa using this

theorem mem_eventPairs (a b : EId) : ∀ (l : List EId), (a, b) ∈ eventPairs l → a ∈ l ∧ b ∈ l := by
  intro l
  induction l with
  | nil => simp [eventPairs]
  | cons x t ih =>
    simp only [eventPairs, List.mem_append, List.mem_map, Prod.mk.injEq, List.mem_cons]
    rintro (⟨y, hy, rfl, rfl⟩ | hm)
    · exact ⟨Or.inl rfl, Or.inr hy⟩
    · exact ⟨Or.inr (ih hm).1, Or.inr (ih hm).2⟩

/-- **C57, the pairs.** Of two different events of the list exactly one of the pairs `(a, b)`, `(b, a)` is visited, and no pair is visited twice. -/
theorem C57_pairs : ∀ (l : List EId), l.Nodup → (eventPairs l).Nodup ∧
    (∀ a ∈ l, ∀ b ∈ l, a ≠ b → ((a, b) ∈ eventPairs l ↔ (b, a) ∉ eventPairs l)) ∧ (∀ a b, (a, b) ∈ eventPairs l → a ∈ l ∧ b ∈ l ∧ a ≠ b) := by
  intro l
  induction l with
  | nil => intro _; simp [eventPairs]
  | cons x t ih =>
    intro hnd
    obtain ⟨hx, hnt⟩ := List.nodup_cons.1 hnd
    obtain ⟨i1, i2, i3⟩ := ih hnt
    have hxl : ∀ b, (x, b) ∉ eventPairs t := fun b hb => hx (mem_eventPairs x b t hb).1
    have hxr : ∀ b, (b, x) ∉ eventPairs t := fun b hb => hx (mem_eventPairs b x t hb).2
    have hmem : ∀ a b, (a, b) ∈ eventPairs (x :: t) ↔ (a = x ∧ b ∈ t) ∨ (a, b) ∈ eventPairs t := by
      intro a b
      simp only [eventPairs, List.mem_append, List.mem_map, Prod.mk.injEq]
      constructor
      · rintro (⟨y, hy, rfl, rfl⟩ | hm)
        · exact Or.inl ⟨rfl, hy⟩
        · exact Or.inr hm
      · rintro (⟨rfl, hb⟩ | hm)
        · exact Or.inl ⟨b, hb, rfl, rfl⟩
        · exact Or.inr hm
    refine ⟨?_, ?_, ?_⟩
    · rw [eventPairs, List.nodup_append]
      refine ⟨hnt.map (fun a b hab => (Prod.mk.inj hab).2), i1, ?_⟩
      rintro ⟨p, q⟩ hp ⟨p', q'⟩ hq hpq
      obtain ⟨y, -, e⟩ := List.mem_map.1 hp
      obtain ⟨rfl, rfl⟩ := Prod.mk.inj hpq
      obtain ⟨rfl, rfl⟩ := Prod.mk.inj e
      exact hxl _ hq
    · intro a ha b hb hab
      rw [hmem, hmem]
      rcases List.mem_cons.1 ha with rfl | ha'
      · have hbt : b ∈ t := (List.mem_cons.1 hb).resolve_left (Ne.symm hab)
        constructor
        · rintro _ (⟨rfl, h2⟩ | h2)
          · exact hab rfl
          · exact hxr _ h2
        · intro _; exact Or.inl ⟨rfl, hbt⟩
      · rcases List.mem_cons.1 hb with rfl | hb'
        · constructor
          · rintro (⟨rfl, h2⟩ | h2)
            · exact absurd rfl hab
            · exact absurd h2 (hxr _)
          · intro hn; exact absurd (Or.inl ⟨rfl, ha'⟩) hn
        · have hax : a ≠ x := fun e => hx (e ▸ ha')
          have hbx : b ≠ x := fun e => hx (e ▸ hb')
          simp only [hax, hbx, false_and, false_or]
          exact i2 a ha' b hb' hab
    · intro a b hm
      rcases (hmem a b).1 hm with ⟨rfl, hb⟩ | hm'
      · exact ⟨List.mem_cons_self, List.mem_cons_of_mem _ hb, fun e => hx (e ▸ hb)⟩
      · obtain ⟨h1, h2, h3⟩ := i3 a b hm'
        exact ⟨List.mem_cons_of_mem _ h1, List.mem_cons_of_mem _ h2, h3⟩

open Classical in
/-- the number of linked pairs in the list is the number of links between its events -/
theorem C57_count (v : h.Valid) (events : List EId) (hnd : events.Nodup) :
    (linkedPairs h events).length = ((events.toFinset ×ˢ events.toFinset).filter (fun p => Covers h.Lt p.1 p.2)).card := by
  rw [← linkedPairs_eq v, length_linkedPairs v events hnd, card_links v]

variable {γ : Type}

/-- **C57, what is plotted.** The events that the plotting function draws: the event, the events of the list with their repetitions, or each event of the causet once. -/
theorem C57_targets (it : Iter) : (∀ e, targetEvents it (.event e) = [e]) ∧ (∀ l, targetEvents it (.list l) = l) ∧
    ∀ C : Finset EId, (targetEvents it (.causet C)).Nodup ∧ ∀ e, e ∈ targetEvents it (.causet C) ↔ e ∈ C :=
  ⟨fun _ => rfl, fun _ => rfl, fun C => ⟨it.nodup _ C, fun _ => it.mem _ C _⟩⟩

/-- **C57, static plots.** For a list of different events (or a causet) in a consistent state: the plotting function returns normally, the list of link handles has exactly one
entry for each linked pair of events, in the order of the loops, and none of them is left empty; the lists of events and labels have one entry for each event.  -/
theorem C57_static (it : Iter) (eps : ℝ) (g dc : Scheme) (geomP geomF : Point → ℝ → Except Err (Option γ)) (co : EId → Point) (E : PlotTarget) (a : PlotArgs)
    (t0 t1 : ℝ) (v : h0.Valid) (hnd : (targetEvents it E).Nodup) (p : PlotParams) (hp : plotParameters g dc a = .ok p)
    (pc fc : Option (List (ℝ × γ))) (hpc : conePart p p.pastcones (-1) geomP co t0 (targetEvents it E) = .ok pc)
    (hfc : conePart p p.futurecones 1 geomF co t1 (targetEvents it E) = .ok fc)
    (hs : p.timedepth = none) (ax : List (String × (ℝ × ℝ))) (hax : setAxis p.is3d p.axislim = .ok ax) :
    h0.Answers (plotter it eps g dc geomP geomF co E a t0 t1)
      (.ok ⟨pc, fc, p.links.map (fun _ => (linkedPairs h0 (targetEvents it E)).map
          (fun q => staticArt eps p.is3d p.dims co (targetEvents it E) q.1 q.2)),
        p.events.map (fun _ => (targetEvents it E).map (fun e => some ⟨e, axesOf p.dims (co e), none⟩)),
        p.labels.map (fun _ => (targetEvents it E).map (fun e => some ⟨e, axesOf p.dims (co e), none⟩)), ax⟩) := by
  unfold plotter
  rw [hp]
  simp only [hpc, hfc]
  have hev : ∀ (o : Option PDict) (f : EId → Option EventArt) (l : List EId),
      o.map (fun _ => l.map (fun a => if o.isSome then f a else none)) = o.map (fun _ => l.map f) := by
    intro o f l; cases o <;> simp
  cases hl : p.links with
  | none =>
    simp only [Option.isSome_none, Bool.false_eq_true, if_false, Option.map_none]
    refine Answers.bind Answers.pure ?_
    unfold drawPart
    simp only [hs, hl, Option.isSome_none, Bool.false_eq_true, if_false]
    refine Answers.bind (Answers.bind Answers.pure Answers.pure) ?_
    simp only [hax, hev]
    exact Answers.pure
  | some d =>
    simp only [Option.isSome_some, if_true, Option.map_some]
    refine Answers.bind (linkCountOf_answers it v _) ?_
    unfold drawPart
    simp only [hs, hl, Option.isSome_some, if_true]
    refine Answers.bind (Answers.bind (linkLoop_all it v _ _ hnd _ rfl) Answers.pure) ?_
    simp only [hax, hev]
    exact Answers.pure

/-- **C57, dynamic plots.** The same in dynamic mode (with links switched on and an implemented fading function): one handle for each linked pair, which stays empty
exactly if `dynamicArt` does not draw the link (see C75); events and labels are drawn exactly if their fading value is positive. -/
theorem C57_dynamic (it : Iter) (eps : ℝ) (g dc : Scheme) (geomP geomF : Point → ℝ → Except Err (Option γ)) (co : EId → Point) (E : PlotTarget) (a : PlotArgs)
    (t0 t1 : ℝ) (v : h0.Valid) (hnd : (targetEvents it E).Nodup) (p : PlotParams) (hp : plotParameters g dc a = .ok p)
    (pc fc : Option (List (ℝ × γ))) (hpc : conePart p p.pastcones (-1) geomP co t0 (targetEvents it E) = .ok pc)
    (hfc : conePart p p.futurecones 1 geomF co t1 (targetEvents it E) = .ok fc)
    (depth : ℝ) (hs : p.timedepth = some depth) (ld : PDict) (hl : p.links = some ld) (fe fl : ℝ → ℝ)
    (hfe : dynamicParameter p.timefade (if p.is3d then 3 else 2) depth (dictNum (p.events.getD []) "alpha" 1) = some fe)
    (hfl : dynamicParameter p.timefade (if p.is3d then 3 else 2) depth (dictNum ld "linewidth" 0) = some fl)
    (ax : List (String × (ℝ × ℝ))) (hax : setAxis p.is3d p.axislim = .ok ax) :
    h0.Answers (plotter it eps g dc geomP geomF co E a t0 t1)
      (.ok ⟨pc, fc, some ((linkedPairs h0 (targetEvents it E)).map (fun q => dynamicArt fe fl depth t0 p.dims co q.1 q.2)),
        p.events.map (fun _ => (targetEvents it E).map
          (fun e => if fe (co e 0 - t0) ≤ 0 then none else some ⟨e, axesOf p.dims (co e), some (fe (co e 0 - t0))⟩)),
        p.labels.map (fun _ => (targetEvents it E).map
          (fun e => if fe (co e 0 - t0) ≤ 0 then none else some ⟨e, axesOf p.dims (co e), none⟩)), ax⟩) := by
  unfold plotter
  rw [hp]
  simp only [hpc, hfc, hl, Option.isSome_some, if_true, Option.map_some]
  have hev : ∀ (o : Option PDict) (f : EId → Option EventArt) (l : List EId),
      o.map (fun _ => l.map (fun a => if o.isSome then f a else none)) = o.map (fun _ => l.map f) := by
    intro o f l; cases o <;> simp
  refine Answers.bind (linkCountOf_answers it v _) ?_
  unfold drawPart
  simp only [hs, hl, hfe, hfl]
  refine Answers.bind (Answers.bind (linkLoop_all it v _ _ hnd _ rfl) Answers.pure) ?_
  simp only [hax, hev]
  exact Answers.pure

end Causets
