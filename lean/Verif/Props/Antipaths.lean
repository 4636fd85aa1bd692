import Verif.Props.GraphDist

/-! # C41, C66: `Antipaths` -/

namespace Causets

open Heap

variable {h : Heap}

/-! ## soundness -/

/-- a property of all results of all calls is a property of the flattened result -/
theorem mapM_except_mem {α β : Type} (f : α → Except Err (List β)) : ∀ (L : List α) (pss : List (List β)), L.mapM f = .ok pss →
    ∀ p, p ∈ pss.flatten ↔ ∃ m ∈ L, ∃ ps, f m = .ok ps ∧ p ∈ ps := by
  intro L
  induction L with
  | nil =>
    intro pss hp p
    have : pss = [] := by simpa [pure, Except.pure] using hp.symm
    subst this; simp
  | cons a L ih =>
    intro pss hp p
    rw [List.mapM_cons] at hp
    cases ha : f a with
    | error x => rw [ha] at hp; simp [bind, Except.bind] at hp
    | ok ps =>
      rw [ha] at hp
      cases hL : L.mapM f with
      | error x => rw [hL] at hp; simp [bind, Except.bind] at hp
      | ok pss' =>
        rw [hL] at hp
        have : pss = ps :: pss' := by simpa [bind, Except.bind, pure, Except.pure] using hp.symm
        subst this
        rw [List.flatten_cons, List.mem_append, ih pss' hL p]
        constructor
        · rintro (h1 | ⟨m, hm, h1⟩)
          · exact ⟨a, by simp, ps, ha, h1⟩
          · exact ⟨m, by simp [hm], h1⟩
        · rintro ⟨m, hm, ps', h1, h2⟩
          rcases List.mem_cons.1 hm with rfl | hm
          · rw [ha] at h1
            left
            have : ps = ps' := by simpa using h1
            rw [this]; exact h2
          · exact Or.inr ⟨m, hm, ps', h1, h2⟩

theorem mapM_except_ok {α β : Type} (f : α → Except Err β) (g : α → β) : ∀ (L : List α), (∀ m ∈ L, f m = .ok (g m)) →
    L.mapM f = .ok (L.map g) := by
  intro L
  induction L with
  | nil => intro _; rfl
  | cons a L ih =>
    intro hL
    rw [List.mapM_cons, hL a (by simp), ih fun m hm => hL m (by simp [hm])]
    rfl

theorem antipathsFind_sound (D : DMat) (l b : ℕ) (hb : b < l) : ∀ (depth e : ℕ) (ps : List (List ℕ)), e < l →
    antipathsFind D l b depth e = .ok ps → ∀ p ∈ ps, p.head? = some e ∧ p.getLast? = some b ∧ 2 ≤ p.length ∧ ∀ x ∈ p, x < l := by
  intro depth
  induction depth with
  | zero => intro e ps _ hp; simp [antipathsFind] at hp
  | succ d ih =>
    intro e ps he hp p hpp
    unfold antipathsFind at hp
    split at hp
    · simp only [Except.ok.injEq] at hp
      rw [← hp, List.mem_singleton] at hpp
      subst hpp
      refine ⟨rfl, rfl, by simp, ?_⟩
      simp [he, hb]
    · split at hp
      · simp at hp
      · dsimp only at hp
        split at hp
        · simp at hp
        · split at hp
          · simp at hp
          · next pss hm =>
            simp only [Except.ok.injEq] at hp
            rw [← hp, List.mem_map] at hpp
            obtain ⟨q, hq, rfl⟩ := hpp
            obtain ⟨m, hmL, ps', h1, h2⟩ := (mapM_except_mem _ _ _ hm q).1 hq
            have hml : m < l := by
              have := (List.mem_filter.1 (List.mem_filter.1 hmL).1).1
              simpa using this
            obtain ⟨g1, g2, g3, g4⟩ := ih m ps' hml h1 q h2
            refine ⟨rfl, ?_, by simp; omega, ?_⟩
            · rw [List.getLast?_cons, g2]; rfl
            · intro x hx
              rcases List.mem_cons.1 hx with rfl | hx
              · exact he
              · exact g4 x hx

/-- **C41.** Whatever the state, the distance matrix (also one passed by the user) and the recursion limit: every list yielded by
`Antipaths(a, b, along)` starts with `a`, ends with `b` and consists of members of `along`. -/
theorem C41_antipaths (it : Iter) (C : Finset EId) (depth : ℕ) (a b : EId) (along : List EId) (distances : Option DMat)
    (ps : List (List EId)) (hps : h.antipaths it C depth a b along distances = .ok ps) (p : List EId) (hp : p ∈ ps) :
    p.head? = some a ∧ p.getLast? = some b ∧ ∀ x ∈ p, x ∈ along := by
  unfold antipaths at hps
  split at hps
  · next hab =>
    simp only [Except.ok.injEq] at hps
    rw [← hps, List.mem_singleton] at hp
    subst hp
    refine ⟨rfl, by rw [← hab.1]; rfl, by simp [hab.2]⟩
  · split at hps
    · simp only [Except.ok.injEq] at hps
      rw [← hps] at hp; simp at hp
    · next hin =>
      rw [not_not] at hin
      obtain ⟨-, ha, hb⟩ := hin
      split at hps
      · simp at hps
      · next D hD =>
        split at hps
        · simp only [Except.ok.injEq] at hps
          rw [← hps] at hp; simp at hp
        · split at hps
          · simp at hps
          · next qs hqs =>
            simp only [Except.ok.injEq] at hps
            rw [← hps, List.mem_map] at hp
            obtain ⟨q, hq, rfl⟩ := hp
            have hal := List.idxOf_lt_length_of_mem ha
            have hbl := List.idxOf_lt_length_of_mem hb
            obtain ⟨g1, g2, -, g4⟩ := antipathsFind_sound D along.length _ hbl depth _ qs hal hqs q hq
            refine ⟨?_, ?_, ?_⟩
            · rw [List.head?_map, g1]
              simp [List.getD, hal]
            · rw [List.getLast?_map, g2]
              simp [List.getD, hbl]
            · intro x hx
              obtain ⟨i, hi, rfl⟩ := List.mem_map.1 hx
              have := g4 i hi
              simp [List.getD, this]

/-- `Antipaths(a, a, along)` yields exactly `[a]`; for events that are related or not in `along` nothing is yielded. -/
theorem C41_trivial (it : Iter) (v : h.Valid) (C : Finset EId) (depth : ℕ) (a b : EId) (along : List EId) (distances : Option DMat) :
    (a ∈ along → h.antipaths it C depth a a along distances = .ok [[a]]) ∧
    (h.Lt a b ∨ h.Lt b a → h.antipaths it C depth a b along distances = .ok []) ∧
    (a ∉ along ∨ b ∉ along → h.antipaths it C depth a b along distances = .ok []) := by
  refine ⟨fun ha => ?_, fun hab => ?_, fun hab => ?_⟩
  · unfold antipaths; rw [if_pos ⟨rfl, ha⟩]
  · have hne : a ≠ b := by
      rintro rfl; rcases hab with h1 | h1 <;> exact v.irrefl _ h1
    have hsp : h.isSpacelikeTo a b ≠ true := by
      unfold isSpacelikeTo
      simp only [ne_eq, Bool.and_eq_true, decide_eq_true_eq, not_and_or, not_not]
      rcases hab with h1 | h1
      · exact Or.inr ((v.future_eq _ _).2 h1)
      · exact Or.inl (Or.inr ((v.past_eq _ _).2 h1))
    unfold antipaths
    rw [if_neg (fun hh => hne hh.1), if_pos (fun hh => hsp hh.1)]
  · unfold antipaths
    rw [if_neg, if_pos]
    · rintro ⟨-, h1, h2⟩; tauto
    · rintro ⟨rfl, h1⟩; tauto

/-- **C41, no distance.** With a given distance matrix whose entry for two different events of the antichain is -1 (the value `DistanceMatrix` gives to events without
a distance) `Antipaths` yields nothing, without an exception and for every recursion limit. -/
theorem C41_no_distance (it : Iter) (C : Finset EId) (depth : ℕ) (a b : EId) (along : List EId) (D : DMat) (hab : a ≠ b)
    (hD : D (along.idxOf a) (along.idxOf b) = -1) : h.antipaths it C depth a b along (some D) = .ok [] := by
  unfold antipaths
  rw [if_neg (fun hh => hab hh.1)]
  split
  · rfl
  · simp only [hD, if_true]

/-- C41: a matrix of two events without a distance -/
example : (fun i j => if i = j then 0 else -1 : DMat) (List.idxOf 5 [5, 7]) (List.idxOf 7 [5, 7]) = -1 := by decide

/-! ## with graph distances: exactly the shortest paths -/

/-- **Specification.** A ziczac path from `a` to `b` in `along`: consecutive events are different and have a common predecessor or successor
in the slice. -/
def IsZiczacPath (h : Heap) (slice : Finset EId) (along : List EId) (a b : EId) (p : List EId) : Prop :=
  p.head? = some a ∧ p.getLast? = some b ∧ (∀ x ∈ p, x ∈ along) ∧ p.IsChain (fun x y => x ≠ y ∧ NearIn h slice x y)

/-- paths of indices in a graph on the indices below `l` -/
def IdxPath {l : ℕ} (G : SimpleGraph (Fin l)) (a b : ℕ) (p : List ℕ) : Prop :=
  p.head? = some a ∧ p.getLast? = some b ∧ (∀ x ∈ p, x < l) ∧ p.IsChain (fun x y => ∃ hx hy, G.Adj ⟨x, hx⟩ ⟨y, hy⟩)

theorem IdxPath.dist_le {l : ℕ} {G : SimpleGraph (Fin l)} : ∀ (p : List ℕ) (a b : Fin l), IdxPath G a b p →
    G.Reachable a b ∧ G.dist a b + 1 ≤ p.length := by
  intro p
  induction p with
  | nil => intro a b hp; simp [IdxPath] at hp
  | cons x p ih =>
    intro a b hp
    obtain ⟨h1, h2, h3, h4⟩ := hp
    have hxa : x = a := by simpa using h1
    cases p with
    | nil =>
      have : x = b := by simpa using h2
      have : a = b := Fin.ext (by omega)
      subst this
      simp
    | cons y p =>
      rw [List.isChain_cons_cons] at h4
      obtain ⟨⟨hx, hy, hadj⟩, h5⟩ := h4
      have : a = ⟨x, hx⟩ := Fin.ext hxa.symm
      subst this
      obtain ⟨g1, g2⟩ := ih ⟨y, hy⟩ b ⟨rfl, by rw [List.getLast?_cons_cons] at h2; exact h2, fun z hz => h3 z (by simp [hz]), h5⟩
      refine ⟨hadj.reachable.trans g1, ?_⟩
      have := hadj.reachable.dist_triangle_left b
      rw [SimpleGraph.dist_eq_one_iff_adj.2 hadj] at this
      simp only [List.length_cons] at g2 ⊢
      omega

theorem antipathsFind_geodesics {l : ℕ} (G : SimpleGraph (Fin l)) (hG : G.Preconnected) (D : DMat)
    (hD : ∀ i j : Fin l, D i j = G.dist i j) (b : Fin l) : ∀ (n depth : ℕ) (e : Fin l), G.dist e b = n → 1 ≤ n → n ≤ depth →
    ∃ ps, antipathsFind D l b depth e = .ok ps ∧ ps.Nodup ∧
      ∀ p, p ∈ ps ↔ IdxPath G e b p ∧ p.length = n + 1 := by
  intro n
  induction n with
  | zero => intro _ _ _ h1; omega
  | succ n ih =>
    intro depth e hn _ hdep
    cases depth with
    | zero => omega
    | succ d =>
    have hDeb : D e b = (n : ℤ) + 1 := by rw [hD, hn]; push_cast; rfl
    unfold antipathsFind
    rw [hDeb]
    by_cases h0 : n = 0
    · subst h0
      have hadj : G.Adj e b := SimpleGraph.dist_eq_one_iff_adj.1 hn
      refine ⟨_, if_pos (by norm_num), by simp, fun p => ?_⟩
      rw [List.mem_singleton]
      constructor
      · rintro rfl
        exact ⟨⟨rfl, rfl, by simp, by simp [hadj]⟩, rfl⟩
      · rintro ⟨⟨h1, h2, -, -⟩, h3⟩
        match p, h1, h2, h3 with
        | [x, y], h1, h2, _ =>
          have e1 : x = e := by simpa using h1
          have e2 : y = b := by simpa using h2
          rw [e1, e2]
    · rw [if_neg (by omega)]
      obtain ⟨m0, hm0, hdm0, hadj0⟩ := dist_pred (n := n) (hG b e) (by rw [SimpleGraph.dist_comm]; exact hn)
      -- the least positive entry of the row is 1
      have hnear : minSel (D e) ((List.range l).filter (fun m => D e m > 0)) = some 1 := by
        cases hs : minSel (D e) ((List.range l).filter (fun m => D e m > 0)) with
        | none =>
          rw [minSel_none] at hs
          have : (m0 : ℕ) ∈ (List.range l).filter (fun m => D e m > 0) := by
            simp only [List.mem_filter, List.mem_range, decide_eq_true_eq]
            refine ⟨m0.2, ?_⟩
            rw [hD, SimpleGraph.dist_eq_one_iff_adj.2 hadj0.symm]; norm_num
          rw [hs] at this; simp at this
        | some x =>
          obtain ⟨⟨m, hm, he⟩, hle⟩ := minSel_some _ _ _ hs
          have h1 : (m0 : ℕ) ∈ (List.range l).filter (fun m => D e m > 0) := by
            simp only [List.mem_filter, List.mem_range, decide_eq_true_eq]
            refine ⟨m0.2, ?_⟩
            rw [hD, SimpleGraph.dist_eq_one_iff_adj.2 hadj0.symm]; norm_num
          have h2 := hle _ h1
          rw [hD, SimpleGraph.dist_eq_one_iff_adj.2 hadj0.symm] at h2
          simp only [List.mem_filter, List.mem_range, decide_eq_true_eq] at hm
          have : x = 1 := by push_cast at h2; omega
          rw [this]
      rw [hnear]
      dsimp only
      have hnb : ∀ m : ℕ, m ∈ (List.range l).filter (fun m => D e m = 1) ↔ ∃ hm : m < l, G.Adj e ⟨m, hm⟩ := by
        intro m
        simp only [List.mem_filter, List.mem_range, decide_eq_true_eq]
        constructor
        · rintro ⟨hm, h1⟩
          refine ⟨hm, SimpleGraph.dist_eq_one_iff_adj.1 ?_⟩
          have := hD e ⟨m, hm⟩
          dsimp only at this
          omega
        · rintro ⟨hm, h1⟩
          refine ⟨hm, ?_⟩
          have := hD e ⟨m, hm⟩
          rw [SimpleGraph.dist_eq_one_iff_adj.2 h1] at this
          exact_mod_cast this
      have hge : ∀ m (hm : m < l), G.Adj e ⟨m, hm⟩ → n ≤ G.dist b ⟨m, hm⟩ := by
        intro m hm hadj
        have := hadj.reachable.dist_triangle_left b
        have hc : G.dist b ⟨m, hm⟩ = G.dist ⟨m, hm⟩ b := SimpleGraph.dist_comm
        rw [SimpleGraph.dist_eq_one_iff_adj.2 hadj] at this
        omega
      have hclose : minSel (D b) ((List.range l).filter (fun m => D e m = 1)) = some (n : ℤ) := by
        have hin : (m0 : ℕ) ∈ (List.range l).filter (fun m => D e m = 1) := (hnb m0).2 ⟨m0.2, hadj0.symm⟩
        cases hs : minSel (D b) ((List.range l).filter (fun m => D e m = 1)) with
        | none => rw [minSel_none] at hs; rw [hs] at hin; simp at hin
        | some x =>
          obtain ⟨⟨m, hm, he⟩, hle⟩ := minSel_some _ _ _ hs
          have h1 := hle _ hin
          rw [hD, hdm0] at h1
          obtain ⟨hm1, hm2⟩ := (hnb m).1 hm
          have h2 := hge m hm1 hm2
          have h3 := hD b ⟨m, hm1⟩
          dsimp only at h3
          have : x = n := by omega
          rw [this]
      rw [hclose]
      dsimp only
      -- the recursive calls
      set L := ((List.range l).filter (fun m => D e m = 1)).filter (fun m => D b m = (n : ℤ)) with hL
      have hmem : ∀ m : ℕ, m ∈ L ↔ ∃ hm : m < l, G.Adj e ⟨m, hm⟩ ∧ G.dist ⟨m, hm⟩ b = n := by
        intro m
        rw [hL, List.mem_filter, hnb]
        simp only [decide_eq_true_eq]
        constructor
        · rintro ⟨⟨hm, h1⟩, h2⟩
          have := hD b ⟨m, hm⟩
          refine ⟨hm, h1, ?_⟩
          rw [SimpleGraph.dist_comm]
          dsimp only at this
          omega
        · rintro ⟨hm, h1, h2⟩
          have := hD b ⟨m, hm⟩
          rw [SimpleGraph.dist_comm, h2] at this
          exact ⟨⟨hm, h1⟩, this⟩
      have hnd : L.Nodup := (List.nodup_range.filter _).filter _
      have hex : ∀ m, ∃ ps, m ∈ L → antipathsFind D l b d m = .ok ps ∧ ps.Nodup ∧
          ∀ p, p ∈ ps ↔ IdxPath G m b p ∧ p.length = n + 1 := by
        intro m
        by_cases hm : m ∈ L
        · obtain ⟨hml, h1, h2⟩ := (hmem m).1 hm
          obtain ⟨ps, g⟩ := ih d ⟨m, hml⟩ h2 (by omega) (by omega)
          exact ⟨ps, fun _ => g⟩
        · exact ⟨[], fun hh => absurd hh hm⟩
      choose g hg using hex
      rw [mapM_except_ok _ g L fun m hm => (hg m hm).1]
      refine ⟨_, rfl, ?_, fun p => ?_⟩
      · refine List.Nodup.map (fun x y hxy => by simpa using hxy) ?_
        rw [← List.flatMap_def, List.nodup_flatMap]
        refine ⟨fun m hm => (hg m hm).2.1, ?_⟩
        refine hnd.pairwise_of_forall_ne fun m hm m' hm' hne => ?_
        simp only [Function.onFun, List.disjoint_left]
        intro q h1 h2
        have a1 := (((hg m hm).2.2 q).1 h1).1.1
        have a2 := (((hg m' hm').2.2 q).1 h2).1.1
        rw [a1] at a2
        exact hne (by simpa using a2)
      · rw [List.mem_map]
        simp only [← List.flatMap_def, List.mem_flatMap]
        constructor
        · rintro ⟨q, ⟨m, hm, hq⟩, rfl⟩
          obtain ⟨hp, hlen⟩ := ((hg m hm).2.2 q).1 hq
          obtain ⟨hml, hadj, hd⟩ := (hmem m).1 hm
          refine ⟨⟨rfl, ?_, ?_, ?_⟩, by simp [hlen]⟩
          · rw [List.getLast?_cons, hp.2.1]; rfl
          · intro x hx
            rcases List.mem_cons.1 hx with rfl | hx
            · exact e.2
            · exact hp.2.2.1 x hx
          · have hh := hp.1
            cases q with
            | nil => simp at hh
            | cons y q =>
              have : y = m := by simpa using hh
              subst this
              rw [List.isChain_cons_cons]
              exact ⟨⟨e.2, hml, hadj⟩, hp.2.2.2⟩
        · rintro ⟨⟨h1, h2, h3, h4⟩, h5⟩
          match p, h1, h2, h3, h4, h5 with
          | [x], _, _, _, _, h5 => simp at h5
          | x :: y :: q, h1, h2, h3, h4, h5 =>
            have e1 : x = e := by simpa using h1
            subst e1
            rw [List.isChain_cons_cons] at h4
            obtain ⟨⟨hx, hy, hadj⟩, h6⟩ := h4
            have hpath : IdxPath G y b (y :: q) :=
              ⟨rfl, by rw [List.getLast?_cons_cons] at h2; exact h2, fun z hz => h3 z (by simp [hz]), h6⟩
            have hd := (IdxPath.dist_le (y :: q) ⟨y, hy⟩ b hpath).2
            have h7 := hge y hy hadj
            rw [SimpleGraph.dist_comm] at h7
            simp only [List.length_cons] at hd h5
            have hyL : y ∈ L := (hmem y).2 ⟨hy, hadj, by omega⟩
            refine ⟨y :: q, ⟨y, hyL, ((hg y hyL).2.2 _).2 ⟨hpath, by simp; omega⟩⟩, rfl⟩

/-! ## from indices to events -/

theorem idx_to_event (slice : Finset EId) (along : List EId) (hnd : along.Nodup) (a b : EId) (ha : a ∈ along) (hb : b ∈ along)
    (q : List ℕ) (hq : IdxPath (ziczacGraph h slice along) (along.idxOf a) (along.idxOf b) q) :
    IsZiczacPath h slice along a b (q.map (fun i => along.getD i 0)) := by
  obtain ⟨g1, g2, g3, g4⟩ := hq
  have hal := List.idxOf_lt_length_of_mem ha
  have hbl := List.idxOf_lt_length_of_mem hb
  refine ⟨?_, ?_, ?_, ?_⟩
  · rw [List.head?_map, g1]; simp [List.getD, hal]
  · rw [List.getLast?_map, g2]; simp [List.getD, hbl]
  · intro x hx
    obtain ⟨i, hi, rfl⟩ := List.mem_map.1 hx
    have := g3 i hi
    simp [List.getD, this]
  · rw [List.isChain_map]
    refine g4.imp ?_
    rintro x y ⟨hx, hy, hadj⟩
    have e1 : along.getD x 0 = along[x] := by simp [List.getD, hx]
    have e2 : along.getD y 0 = along[y] := by simp [List.getD, hy]
    rw [e1, e2]
    exact ⟨fun he => hadj.1 (Fin.ext ((hnd.getElem_inj_iff).1 he)), hadj.2⟩

theorem event_to_idx (slice : Finset EId) (along : List EId) (a b : EId)
    (p : List EId) (hp : IsZiczacPath h slice along a b p) :
    IdxPath (ziczacGraph h slice along) (along.idxOf a) (along.idxOf b) (p.map along.idxOf) ∧
      (p.map along.idxOf).map (fun i => along.getD i 0) = p := by
  obtain ⟨g1, g2, g3, g4⟩ := hp
  refine ⟨⟨?_, ?_, ?_, ?_⟩, ?_⟩
  · rw [List.head?_map, g1]; rfl
  · rw [List.getLast?_map, g2]; rfl
  · intro x hx
    obtain ⟨i, hi, rfl⟩ := List.mem_map.1 hx
    exact List.idxOf_lt_length_of_mem (g3 i hi)
  · rw [List.isChain_map]
    have : ∀ L : List EId, (∀ x ∈ L, x ∈ along) → L.IsChain (fun x y => x ≠ y ∧ NearIn h slice x y) →
        L.IsChain (fun x y => ∃ hx hy, (ziczacGraph h slice along).Adj ⟨along.idxOf x, hx⟩ ⟨along.idxOf y, hy⟩) := by
      intro L
      induction L with
      | nil => intro _ _; exact List.IsChain.nil
      | cons x L ih =>
        intro hL hc
        cases L with
        | nil => exact List.IsChain.singleton _
        | cons y L =>
          rw [List.isChain_cons_cons] at hc ⊢
          have hx := List.idxOf_lt_length_of_mem (hL x (by simp))
          have hy := List.idxOf_lt_length_of_mem (hL y (by simp))
          refine ⟨⟨hx, hy, ?_, ?_⟩, ih (fun z hz => hL z (by simp at hz ⊢; tauto)) hc.2⟩
          · intro he
            have := congrArg Fin.val he
            dsimp only at this
            rw [List.idxOf_inj (hL x (by simp))] at this
            exact hc.1.1 this
          · show NearIn h slice (along[along.idxOf x]) (along[along.idxOf y])
            rw [List.getElem_idxOf, List.getElem_idxOf]
            exact hc.1.2
    exact this p g3 g4
  · rw [List.map_map]
    refine (List.map_congr_left fun x hx => ?_).trans (List.map_id _)
    have := List.idxOf_lt_length_of_mem (g3 x hx)
    simp [List.getD, this]

theorem zero_lt_length_of_reach {l : ℕ} {G : SimpleGraph (Fin l)} {a b : Fin l} (hr : G.Reachable a b) :
    ∃ q, IdxPath G a b q ∧ q.length = G.dist a b + 1 := by
  obtain ⟨w, hw⟩ := hr.exists_walk_length_eq_dist
  rw [← hw]
  clear hw
  induction w with
  | nil =>
    rename_i u
    exact ⟨[u], ⟨rfl, rfl, by simp, List.IsChain.singleton _⟩, rfl⟩
  | cons hadj w ih =>
    rename_i x y z
    obtain ⟨q, ⟨h1, h2, h3, h4⟩, h5⟩ := ih ⟨w⟩
    refine ⟨x :: q, ⟨rfl, ?_, ?_, ?_⟩, by simp [h5]⟩
    · rw [List.getLast?_cons, h2]; rfl
    · intro u hu
      rcases List.mem_cons.1 hu with rfl | hu
      · exact x.2
      · exact h3 u hu
    · cases q with
      | nil => simp at h1
      | cons u q =>
        have : u = y := by simpa using h1
        subst this
        rw [List.isChain_cons_cons]
        exact ⟨⟨x.2, y.2, hadj⟩, h4⟩

/-- **C41, shortest paths.** For an antichain whose events are pairwise connected by ziczacs through the layers directly below and above,
`Antipaths(a, b, along)` (with its own distances) terminates and yields exactly the ziczac paths from `a` to `b` of least length, each once
(for every recursion limit of at least the length of the antichain). -/
theorem C41_shortest (it : Iter) (v : h.Valid) (C : Finset EId) (along : List EId) (hnd : along.Nodup)
    (hac : IsAntichainSet h.Lt along.toFinset)
    (hconn : ∀ x ∈ along, ∀ y ∈ along, ∃ p, IsZiczacPath h (h.layers it along.toFinset (-1) (some 1)) along x y p)
    (depth : ℕ) (hdep : along.length ≤ depth) (a b : EId) (ha : a ∈ along) (hb : b ∈ along) (hab : a ≠ b) :
    ∃ ps, h.antipaths it C depth a b along none = .ok ps ∧ ps.Nodup ∧ ∀ p, p ∈ ps ↔
      IsZiczacPath h (h.layers it along.toFinset (-1) (some 1)) along a b p ∧
      ∀ q, IsZiczacPath h (h.layers it along.toFinset (-1) (some 1)) along a b q → p.length ≤ q.length := by
  set slice := h.layers it along.toFinset (-1) (some 1) with hslice
  set G := ziczacGraph h slice along with hG
  have hal := List.idxOf_lt_length_of_mem ha
  have hbl := List.idxOf_lt_length_of_mem hb
  have hpre : G.Preconnected := by
    intro i j
    obtain ⟨p, hp⟩ := hconn along[i] (List.getElem_mem _) along[j] (List.getElem_mem _)
    have := (event_to_idx slice along _ _ p hp).1
    have e1 : along.idxOf along[i] = i := hnd.idxOf_getElem _ _
    have e2 : along.idxOf along[j] = j := hnd.idxOf_getElem _ _
    rw [e1, e2] at this
    exact (IdxPath.dist_le _ i j this).1
  obtain ⟨D, hD, -, -⟩ := (C40_distanceMatrix it v C along "ziczac" true).1 (Or.inl rfl)
  have hdist : ∀ i j : Fin along.length, D i j = G.dist i j := fun i j =>
    C40_graph_distance it v C along hnd hac D hD i j (hpre i j)
  set A : Fin along.length := ⟨along.idxOf a, hal⟩ with hA
  set B : Fin along.length := ⟨along.idxOf b, hbl⟩ with hB
  have hne : A ≠ B := by
    intro he
    have := congrArg Fin.val he
    exact hab ((List.idxOf_inj ha).1 this)
  have hpos := (hpre A B).pos_dist_of_ne hne
  have hlt := dist_lt_card (hpre A B)
  obtain ⟨ps, h1, h2, h3⟩ := antipathsFind_geodesics G hpre D hdist B _ depth A rfl hpos (by omega)
  have hsp : h.isSpacelikeTo a b = true := by
    unfold isSpacelikeTo
    simp only [Bool.and_eq_true, decide_eq_true_eq]
    have ha' : a ∈ along.toFinset := List.mem_toFinset.2 ha
    have hb' : b ∈ along.toFinset := List.mem_toFinset.2 hb
    exact ⟨⟨hab.symm, fun hh => hac b hb' a ha' ((v.past_eq _ _).1 hh)⟩, fun hh => hac a ha' b hb' ((v.future_eq _ _).1 hh)⟩
  have hval : h.antipaths it C depth a b along none = .ok (ps.map (fun p => p.map (fun i => along.getD i 0))) := by
    unfold antipaths
    rw [if_neg (fun hh => hab hh.1), if_neg (by rw [not_not]; exact ⟨hsp, ha, hb⟩)]
    dsimp only
    rw [hD]
    dsimp only
    have e1 : D (along.idxOf a) (along.idxOf b) = _ := hdist A B
    rw [if_neg (by rw [e1]; omega)]
    have h1' : antipathsFind D along.length (along.idxOf b) depth (along.idxOf a) = .ok ps := h1
    rw [h1']
  refine ⟨_, hval, ?_, fun p => ?_⟩
  · refine List.Nodup.map_on ?_ h2
    intro x hx y hy hxy
    have hinj : ∀ q : List ℕ, (∀ z ∈ q, z < along.length) → (q.map (fun i => along.getD i 0)).map along.idxOf = q := by
      intro q hq
      rw [List.map_map]
      refine (List.map_congr_left fun z hz => ?_).trans (List.map_id _)
      have := hq z hz
      simp [List.getD, this, hnd.idxOf_getElem]
    rw [← hinj x ((h3 x).1 hx).1.2.2.1, ← hinj y ((h3 y).1 hy).1.2.2.1, hxy]
  · rw [List.mem_map]
    have hmin : ∀ q, IsZiczacPath h slice along a b q → G.dist A B + 1 ≤ q.length := by
      intro q hq
      have := (IdxPath.dist_le _ A B (event_to_idx slice along a b q hq).1).2
      rwa [List.length_map] at this
    constructor
    · rintro ⟨q, hq, rfl⟩
      obtain ⟨hq1, hq2⟩ := (h3 q).1 hq
      refine ⟨idx_to_event slice along hnd a b ha hb q hq1, fun r hr => ?_⟩
      rw [List.length_map, hq2]
      exact hmin r hr
    · rintro ⟨hp, hle⟩
      obtain ⟨hp1, hp2⟩ := event_to_idx slice along a b p hp
      refine ⟨_, (h3 _).2 ⟨hp1, ?_⟩, hp2⟩
      obtain ⟨q, hq, hql⟩ := zero_lt_length_of_reach (hpre A B)
      have h4 := hle _ (idx_to_event slice along hnd a b ha hb q hq)
      have h5 := hmin p hp
      rw [List.length_map] at h4 ⊢
      omega

/-! ## C66: `Antipaths` does not always end normally -/

/-- **Specification (C66).** For every antichain and every matrix that `DistanceMatrix` computes for it, `Antipaths` between two of its events ends
without an exception, if the recursion limit is large enough. -/
def AntipathsEnds (it : Iter) (h : Heap) (C : Finset EId) (along : List EId) (counting : String) : Prop :=
  ∀ D, h.distanceMatrix it C along counting true = .ok D → ∀ a ∈ along, ∀ b ∈ along,
    ∃ N, ∀ depth, N ≤ depth → ∃ ps, h.antipaths it C depth a b along (some D) = .ok ps

/-- three events 1, 2, 3 with a common predecessor 0 and a common successor 4 -/
def exAnti : Heap :=
  let h1 := (Heap.empty.newEvent Iter.asc none [] []).2
  let h2 := (h1.newEvent Iter.asc none [0] []).2
  let h3 := (h2.newEvent Iter.asc none [0] []).2
  let h4 := (h3.newEvent Iter.asc none [0] []).2
  (h4.newEvent Iter.asc none [1, 2, 3] []).2

theorem exAnti_reach : LinkReachable exAnti := by
  refine .new _ _ _ _ _ (.new _ _ _ _ _ (.new _ _ _ _ _ (.new _ _ _ _ _
    (.new _ _ _ _ _ .start ?_ ?_ ?_) ?_ ?_ ?_) ?_ ?_ ?_) ?_ ?_ ?_) ?_ ?_ ?_ <;>
    simp [Heap.Exists, Heap.newEvent_fst] <;> decide

theorem antipathsFind_twos (D : DMat) (hD : ∀ i < 3, ∀ j < 3, D i j = if i = j then 0 else 2) :
    ∀ depth e, e < 3 → antipathsFind D 3 1 depth e = .error .recursionError := by
  intro depth
  induction depth with
  | zero => intro e _; rfl
  | succ d ih =>
    intro e he
    have r0 := ih 0 (by omega)
    have r1 := ih 1 (by omega)
    have r2 := ih 2 (by omega)
    have d00 : D 0 0 = 0 := hD 0 (by omega) 0 (by omega)
    have d01 : D 0 1 = 2 := hD 0 (by omega) 1 (by omega)
    have d02 : D 0 2 = 2 := hD 0 (by omega) 2 (by omega)
    have d10 : D 1 0 = 2 := hD 1 (by omega) 0 (by omega)
    have d11 : D 1 1 = 0 := hD 1 (by omega) 1 (by omega)
    have d12 : D 1 2 = 2 := hD 1 (by omega) 2 (by omega)
    have d20 : D 2 0 = 2 := hD 2 (by omega) 0 (by omega)
    have d21 : D 2 1 = 2 := hD 2 (by omega) 1 (by omega)
    have d22 : D 2 2 = 0 := hD 2 (by omega) 2 (by omega)
    have hr : List.range 3 = [0, 1, 2] := rfl
    unfold antipathsFind
    interval_cases e <;>
      simp [hr, d00, d01, d02, d10, d11, d12, d20, d21, d22, minSel, r0, r1, r2, bind, Except.bind, List.filter]

/-- **C66 (refuted).** With the matrix of `DistanceMatrix(along, 'intersection')` (three events with a common predecessor and a common
successor) `Antipaths` exceeds every recursion limit: its entries are 2 for all pairs, so the search never meets an entry 1. -/
theorem C66_intersection_refuted :
    LinkReachable exAnti ∧ [1, 2, 3].Nodup ∧ IsAntichainSet exAnti.Lt [1, 2, 3].toFinset ∧
    (∃ D, exAnti.distanceMatrix Iter.asc {0, 1, 2, 3, 4} [1, 2, 3] "intersection" true = .ok D ∧
      ∀ depth, exAnti.antipaths Iter.asc {0, 1, 2, 3, 4} depth 1 2 [1, 2, 3] (some D) = .error .recursionError) ∧
    ¬ AntipathsEnds Iter.asc exAnti {0, 1, 2, 3, 4} [1, 2, 3] "intersection" := by
  have key : ∃ D, exAnti.distanceMatrix Iter.asc {0, 1, 2, 3, 4} [1, 2, 3] "intersection" true = .ok D ∧
      ∀ depth, exAnti.antipaths Iter.asc {0, 1, 2, 3, 4} depth 1 2 [1, 2, 3] (some D) = .error .recursionError := by
    refine ⟨_, rfl, fun depth => ?_⟩
    have hv : ∀ i < 3, ∀ j < 3, exAnti.distNear {0, 1, 2, 3, 4} [1, 2, 3] ("intersection" == "ziczac")
        (exAnti.layers Iter.asc [1, 2, 3].toFinset (-1) (some 1)) (fun _ _ => 0) i j = if i = j then 0 else 2 := by decide
    generalize exAnti.distNear {0, 1, 2, 3, 4} [1, 2, 3] ("intersection" == "ziczac")
      (exAnti.layers Iter.asc [1, 2, 3].toFinset (-1) (some 1)) (fun _ _ => 0) = D at hv
    unfold antipaths
    rw [if_neg (by decide), if_neg (by decide)]
    dsimp only
    have e1 : [1, 2, 3].idxOf 1 = 0 := by decide
    have e2 : [1, 2, 3].idxOf 2 = 1 := by decide
    rw [e1, e2, hv 0 (by omega) 1 (by omega), if_neg (by decide)]
    have : antipathsFind D [1, 2, 3].length 1 depth 0 = .error .recursionError := antipathsFind_twos D hv depth 0 (by omega)
    rw [this]
  refine ⟨exAnti_reach, by decide, by unfold IsAntichainSet; decide, key, fun hh => ?_⟩
  obtain ⟨D, h1, h2⟩ := key
  obtain ⟨N, hN⟩ := hh D h1 1 (by simp) 2 (by simp)
  obtain ⟨ps, hps⟩ := hN N (le_refl _)
  rw [h2] at hps
  simp at hps

/-- **C66 (refuted), isolated antichains.** If no event lies directly below or above the antichain, all distances are 0 and `Antipaths`
between any two different events of it raises ValueError (the minimum of an empty selection). -/
theorem C66_isolated_refuted (it : Iter) (v : h.Valid) (C : Finset EId) (along : List EId)
    (hac : IsAntichainSet h.Lt along.toFinset)
    (hthin : h.layers it along.toFinset (-1) (some 1) = along.toFinset) (depth : ℕ) (hdep : 0 < depth)
    (a b : EId) (ha : a ∈ along) (hb : b ∈ along) (hab : a ≠ b) :
    h.antipaths it C depth a b along none = .error .valueError := by
  have ha' : a ∈ along.toFinset := List.mem_toFinset.2 ha
  have hb' : b ∈ along.toFinset := List.mem_toFinset.2 hb
  have hsp : h.isSpacelikeTo a b = true := by
    unfold isSpacelikeTo
    simp only [Bool.and_eq_true, decide_eq_true_eq]
    exact ⟨⟨hab.symm, fun hh => hac b hb' a ha' ((v.past_eq _ _).1 hh)⟩, fun hh => hac a ha' b hb' ((v.future_eq _ _).1 hh)⟩
  unfold antipaths
  rw [if_neg (fun hh => hab hh.1), if_neg (by rw [not_not]; exact ⟨hsp, ha, hb⟩)]
  dsimp only
  rw [C40_isolated it C along "ziczac" true (Or.inl rfl) hthin]
  cases depth with
  | zero => omega
  | succ d => simp [antipathsFind, minSel]

/-- **C66, proved part.** For an antichain whose events are pairwise connected by ziczacs through the adjacent layers, `Antipaths` with the
'ziczac' matrix ends normally.  Missing: 'intersection' matrices and isolated antichains (refuted above); antichains connected only through
farther layers. -/
theorem C66_ends_partial (it : Iter) (v : h.Valid) (C : Finset EId) (along : List EId) (hnd : along.Nodup)
    (hac : IsAntichainSet h.Lt along.toFinset)
    (hconn : ∀ x ∈ along, ∀ y ∈ along, ∃ p, IsZiczacPath h (h.layers it along.toFinset (-1) (some 1)) along x y p) :
    AntipathsEnds it h C along "ziczac" := by
  intro D hD a ha b hb
  refine ⟨along.length, fun depth hdep => ?_⟩
  by_cases hab : a = b
  · subst hab
    exact ⟨_, (C41_trivial it v C depth a a along (some D)).1 ha⟩
  · obtain ⟨ps, hps, -⟩ := C41_shortest it v C along hnd hac hconn depth hdep a b ha hb hab
    refine ⟨ps, ?_⟩
    rw [← hps]
    unfold antipaths
    rw [hD]

example : (∃ D, exFence.distanceMatrix Iter.asc {0, 1, 2, 3, 4} [0, 1, 2] "ziczac" true = .ok D) ∧
    (exFence.antipaths Iter.asc {0, 1, 2, 3, 4} 3 0 2 [0, 1, 2] none).toOption = some [[0, 1, 2]] ∧
    (exFence.antipaths Iter.asc {0, 1, 2, 3, 4} 3 0 3 [0, 1, 2] none).toOption = some [] ∧
    (exFence.antipaths Iter.asc {0, 1, 2, 3, 4} 3 1 1 [0, 1, 2] none).toOption = some [[1]] := by
  refine ⟨⟨_, rfl⟩, by decide, by decide, by decide⟩

/-- the hypotheses of `C41_shortest` hold for the fence -/
example : exFence.Valid ∧ [0, 1, 2].Nodup ∧ IsAntichainSet exFence.Lt [0, 1, 2].toFinset ∧
    ∀ x ∈ [0, 1, 2], ∀ y ∈ [0, 1, 2],
      ∃ p, IsZiczacPath exFence (exFence.layers Iter.asc [0, 1, 2].toFinset (-1) (some 1)) [0, 1, 2] x y p := by
  refine ⟨exFence_valid, by decide, by unfold IsAntichainSet; decide, ?_⟩
  have n01 : NearIn exFence (exFence.layers Iter.asc [0, 1, 2].toFinset (-1) (some 1)) 0 1 :=
    ⟨3, by decide, Or.inr ⟨by decide, by decide⟩⟩
  have n10 : NearIn exFence (exFence.layers Iter.asc [0, 1, 2].toFinset (-1) (some 1)) 1 0 :=
    ⟨3, by decide, Or.inr ⟨by decide, by decide⟩⟩
  have n12 : NearIn exFence (exFence.layers Iter.asc [0, 1, 2].toFinset (-1) (some 1)) 1 2 :=
    ⟨4, by decide, Or.inr ⟨by decide, by decide⟩⟩
  have n21 : NearIn exFence (exFence.layers Iter.asc [0, 1, 2].toFinset (-1) (some 1)) 2 1 :=
    ⟨4, by decide, Or.inr ⟨by decide, by decide⟩⟩
  intro x hx y hy
  simp only [List.mem_cons, List.not_mem_nil, or_false] at hx hy
  unfold IsZiczacPath
  generalize exFence.layers Iter.asc [0, 1, 2].toFinset (-1) (some 1) = S at *
  rcases hx with rfl | rfl | rfl <;> rcases hy with rfl | rfl | rfl
  · exact ⟨[0], by simp⟩
  · exact ⟨[0, 1], by simp [n01]⟩
  · exact ⟨[0, 1, 2], by simp [n01, n12]⟩
  · exact ⟨[1, 0], by simp [n10]⟩
  · exact ⟨[1], by simp⟩
  · exact ⟨[1, 2], by simp [n12]⟩
  · exact ⟨[2, 1, 0], by simp [n21, n10]⟩
  · exact ⟨[2, 1], by simp [n21]⟩
  · exact ⟨[2], by simp⟩

end Causets
