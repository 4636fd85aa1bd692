import Verif.Props.Distance
import Mathlib.Combinatorics.SimpleGraph.Connectivity.Connected

/-! # C40: 'ziczac' distances are graph distances -/

namespace Causets

open Heap

variable {h : Heap}

/-- **Specification.** The ziczac graph of a list of events inside a slice: two different members of the list are joined if some event of
the slice precedes both or succeeds both. -/
def ziczacGraph (h : Heap) (slice : Finset EId) (ac : List EId) : SimpleGraph (Fin ac.length) where
  Adj i j := i ≠ j ∧ NearIn h slice ac[i] ac[j]
  symm := ⟨fun _ _ hij => ⟨hij.1.symm, by
    obtain ⟨e, he, hh⟩ := hij.2
    exact ⟨e, he, hh.imp And.symm And.symm⟩⟩⟩
  loopless := ⟨fun _ hii => hii.1 rfl⟩

theorem dist_pred {V : Type} {G : SimpleGraph V} {i j : V} {n : ℕ} (hr : G.Reachable i j) (hd : G.dist i j = n + 1) :
    ∃ m, G.Reachable i m ∧ G.dist i m = n ∧ G.Adj m j := by
  obtain ⟨p, hp⟩ := hr.symm.exists_walk_length_eq_dist
  rw [SimpleGraph.dist_comm, hd] at hp
  cases p with
  | nil => simp at hp
  | cons hadj q =>
    rename_i m
    have hq : q.length = n := by simpa using hp
    refine ⟨m, ⟨q.reverse⟩, ?_, hadj.symm⟩
    have h1 : G.dist i m ≤ n := by
      have := SimpleGraph.dist_le q.reverse
      rwa [SimpleGraph.Walk.length_reverse, hq] at this
    have h2 := SimpleGraph.dist_le ((q.cons hadj).reverse)
    have h3 : G.Reachable i m := ⟨q.reverse⟩
    have h4 := h3.dist_triangle_left j
    have h5 : G.dist m j = 1 := SimpleGraph.dist_eq_one_iff_adj.2 hadj.symm
    omega

theorem dist_lt_card {l : ℕ} {G : SimpleGraph (Fin l)} {i j : Fin l} (hr : G.Reachable i j) : G.dist i j < l := by
  obtain ⟨p, hp, hl⟩ := hr.exists_path_of_dist
  have := hp.length_lt
  rw [Fintype.card_fin, hl] at this
  exact this

/-- the state of the breadth-first search before level `k` -/
def BfsInv {l : ℕ} (G : SimpleGraph (Fin l)) (k : ℕ) (D : DMat) : Prop :=
  ∀ i j : Fin l, (0 ≤ D i j → G.Reachable i j ∧ D i j = G.dist i j) ∧ (D i j < 0 → G.Reachable i j → k < G.dist i j)

theorem bfs_step {l : ℕ} (G : SimpleGraph (Fin l)) (k : ℕ) (hk : 1 ≤ k) : StepClosed l k (BfsInv G k) := by
  intro D i j m hi hj hm hD hP h1 h2 h3 x y
  by_cases hh : ((x : ℕ) = i ∧ (y : ℕ) = j) ∨ ((x : ℕ) = j ∧ (y : ℕ) = i)
  · have hv : setSym D i j (k + 1) x y = k + 1 := by unfold setSym; rw [if_pos hh]
    have a1 := (hP ⟨i, hi⟩ ⟨m, hm⟩).1 (by show 0 ≤ D i m; omega)
    have a2 := (hP ⟨j, hj⟩ ⟨m, hm⟩).1 (by show 0 ≤ D j m; omega)
    have a3 := (hP ⟨i, hi⟩ ⟨j, hj⟩).2 h3
    have e1 : D i m = _ := a1.2
    have e2 : D j m = _ := a2.2
    have hr : G.Reachable ⟨i, hi⟩ ⟨j, hj⟩ := a1.1.trans a2.1.symm
    have ht := a1.1.dist_triangle_left ⟨j, hj⟩
    have hc : G.dist ⟨m, hm⟩ ⟨j, hj⟩ = G.dist ⟨j, hj⟩ ⟨m, hm⟩ := SimpleGraph.dist_comm
    have hd : G.dist ⟨i, hi⟩ ⟨j, hj⟩ = k + 1 := by
      have := a3 hr
      omega
    rw [hv]
    refine ⟨fun _ => ?_, fun h0 => by omega⟩
    rcases hh with ⟨e3, e4⟩ | ⟨e3, e4⟩
    · have : x = ⟨i, hi⟩ := Fin.ext e3
      have : y = ⟨j, hj⟩ := Fin.ext e4
      subst x y
      exact ⟨hr, by rw [hd]; push_cast; rfl⟩
    · have : x = ⟨j, hj⟩ := Fin.ext e3
      have : y = ⟨i, hi⟩ := Fin.ext e4
      subst x y
      exact ⟨hr.symm, by rw [SimpleGraph.dist_comm, hd]; push_cast; rfl⟩
  · rw [setSym_other D _ hh]; exact hP x y

theorem bfs_next {l : ℕ} (G : SimpleGraph (Fin l)) (k : ℕ) (hk : 1 ≤ k) (D : DMat) (hP : BfsInv G k D)
    (hdone : ∀ i < l, RowDone l k D i) : BfsInv G (k + 1) D := by
  intro i j
  refine ⟨(hP i j).1, fun h0 hr => ?_⟩
  have h1 := (hP i j).2 h0 hr
  by_contra hn
  obtain ⟨m, hm, hd, hadj⟩ := dist_pred (n := k) hr (by omega)
  have e1 : D i m = k := by
    by_cases h2 : 0 ≤ D i m
    · have := ((hP i m).1 h2).2; omega
    · have := (hP i m).2 (by omega) hm; omega
  have hdj : G.dist j m = 1 := SimpleGraph.dist_eq_one_iff_adj.2 hadj.symm
  have e2 : D j m = 1 := by
    by_cases h2 : 0 ≤ D j m
    · have := ((hP j m).1 h2).2; omega
    · have := (hP j m).2 (by omega) hadj.symm.reachable; omega
  exact hdone i i.2 j j.2 m m.2 h0 e1 e2

theorem bfs_loop {l : ℕ} (G : SimpleGraph (Fin l)) : ∀ (n k : ℕ) (D : DMat) (c : ℤ), 1 ≤ k → k + n = l → IsDistLike l D →
    BfsInv G k D → c = negCount l D →
    ∀ i j : Fin l, G.Reachable i j → (distLoopK l (List.range' k n) D c).1 i j = G.dist i j := by
  intro n
  induction n with
  | zero =>
    intro k D c hk hkn hD hP hc i j hr
    show D i j = G.dist i j
    by_cases h0 : 0 ≤ D i j
    · exact ((hP i j).1 h0).2
    · have := (hP i j).2 (by omega) hr
      have := dist_lt_card hr
      omega
  | succ n ih =>
    intro k D c hk hkn hD hP hc i j hr
    obtain ⟨h1, h2, h3, h4, h5, h6⟩ := distLoopI_spec hk (bfs_step G k hk) (List.range l) D c (by simp) hD hP hc
    rw [List.range'_succ]
    unfold distLoopK
    generalize hr' : distLoopI l k (List.range l) D c = r at *
    obtain ⟨D', c', b⟩ := r
    cases b with
    | true =>
      have := negCount_zero (h5 rfl) i.2 j.2
      exact ((h2 i j).1 this).2
    | false =>
      dsimp only at *
      exact ih (k + 1) D' c' (by omega) (by omega) h1 (bfs_next G k hk D' h2 fun i hi => h6 rfl i (by simpa using hi)) h3 i j hr

theorem filter_range_eq (l : ℕ) : (List.range l).filter (fun k => 1 ≤ k) = List.range' 1 (l - 1) := by
  cases l with
  | zero => rfl
  | succ n =>
    rw [List.range_eq_range', List.range'_succ, List.filter_cons_of_neg (by simp)]
    refine List.filter_eq_self.2 fun a ha => ?_
    simp at ha ⊢
    omega

/-- after the first loop over a zero matrix, the entries are 1 for joined pairs, -1 for the other pairs -/
theorem distNear_zero (v : h.Valid) (C slice : Finset EId) (ac : List EId) (hnd : ac.Nodup)
    (hac : IsAntichainSet h.Lt ac.toFinset) (i j : Fin ac.length) :
    ((ziczacGraph h slice ac).Adj i j → h.distNear C ac true slice (fun _ _ => 0) i j = 1) ∧
    (i ≠ j → ¬ (ziczacGraph h slice ac).Adj i j → h.distNear C ac true slice (fun _ _ => 0) i j = -1) := by
  have hs := (distNear_spec v C ac true slice (fun _ _ => 0) (zero_isDistLike _)).2 i i.2 j j.2
  constructor
  · intro ha
    have hne : (i : ℕ) ≠ j := fun hh => ha.1 (Fin.ext hh)
    rw [hs, if_pos ⟨hne, by norm_num⟩]
    exact ((nearVal_antichain v C slice ac hnd hac true i j i.2 j.2 hne).1 ha.2).2 rfl
  · intro hij ha
    have hne : (i : ℕ) ≠ j := fun hh => hij (Fin.ext hh)
    rw [hs, if_pos ⟨hne, by norm_num⟩]
    exact (nearVal_antichain v C slice ac hnd hac true i j i.2 j.2 hne).2 fun hn => ha ⟨hij, hn⟩

theorem bfs_init (v : h.Valid) (C slice : Finset EId) (ac : List EId) (hnd : ac.Nodup)
    (hac : IsAntichainSet h.Lt ac.toFinset) :
    BfsInv (ziczacGraph h slice ac) 1 (h.distNear C ac true slice (fun _ _ => 0)) := by
  intro i j
  have hs := distNear_zero v C slice ac hnd hac i j
  have hdiag := (distNear_spec v C ac true slice (fun _ _ => 0) (zero_isDistLike _)).1.diag i i.2
  by_cases hij : i = j
  · subst hij
    rw [hdiag]
    exact ⟨fun _ => ⟨SimpleGraph.Reachable.refl _, by simp⟩, fun h0 => by omega⟩
  · by_cases ha : (ziczacGraph h slice ac).Adj i j
    · rw [hs.1 ha]
      exact ⟨fun _ => ⟨ha.reachable, by rw [SimpleGraph.dist_eq_one_iff_adj.2 ha]; rfl⟩, fun h0 => by omega⟩
    · rw [hs.2 hij ha]
      exact ⟨fun h0 => by omega, fun _ hr => hr.one_lt_dist_of_ne_of_not_adj hij ha⟩

/-- **C40, distances.** For an antichain, `DistanceMatrix` (counting 'ziczac', recursive) contains for every pair of events connected by
ziczacs through the layers directly below and above the antichain the graph distance, i.e. the least number of ziczacs between them. -/
theorem C40_graph_distance (it : Iter) (v : h.Valid) (C : Finset EId) (ac : List EId)
    (hnd : ac.Nodup) (hac : IsAntichainSet h.Lt ac.toFinset) (D : DMat)
    (hD : h.distanceMatrix it C ac "ziczac" true = .ok D) (i j : Fin ac.length)
    (hij : (ziczacGraph h (h.layers it ac.toFinset (-1) (some 1)) ac).Reachable i j) :
    D i j = (ziczacGraph h (h.layers it ac.toFinset (-1) (some 1)) ac).dist i j := by
  set G := ziczacGraph h (h.layers it ac.toFinset (-1) (some 1)) ac with hG
  unfold distanceMatrix at hD
  simp only [beq_self_eq_true, Bool.not_true, Bool.false_and, Bool.false_eq_true, if_false] at hD
  rw [distWhile.eq_def] at hD
  simp only at hD
  split at hD
  · next hlt =>
    simp only [Bool.not_true, Bool.false_eq_true, if_false] at hD
    have h1 := (distNear_spec v C ac true (h.layers it ac.toFinset (-1) (some 1)) _ (zero_isDistLike _)).1
    have hinit := bfs_init v C (h.layers it ac.toFinset (-1) (some 1)) ac hnd hac
    have hl : 1 ≤ ac.length := by have := i.2; omega
    have hloop := bfs_loop G (ac.length - 1) 1 _ _ (by omega) (by omega) h1 hinit rfl
    rw [← filter_range_eq] at hloop
    obtain ⟨g1, -, -⟩ := distLoopK_inv (P := fun _ => True) ((List.range ac.length).filter (fun k => 1 ≤ k)) _ _
          (fun k hk => by
            have : 1 ≤ k := by simpa using (List.mem_filter.1 hk).2
            exact ⟨this, fun _ _ _ _ _ _ _ _ _ _ _ _ => trivial⟩) h1 trivial rfl
    generalize distLoopK ac.length ((List.range ac.length).filter (fun k => 1 ≤ k))
      (h.distNear C ac true (h.layers it ac.toFinset (-1) (some 1)) (fun _ _ => 0))
          (negCount ac.length (h.distNear C ac true (h.layers it ac.toFinset (-1) (some 1))
            (fun _ _ => 0))) = r at hloop hD g1
    obtain ⟨D2, c, b⟩ := r
    cases b with
    | true =>
      simp only [Except.ok.injEq] at hD
      rw [← hD]; exact hloop i j hij
    | false =>
      dsimp only at hD hloop g1
      obtain ⟨D', e1, -, e2⟩ := distWhile_spec it v C ac true true
        (fun D => ∀ i j : Fin ac.length, G.Reachable i j → D i j = G.dist i j)
        (fun D slice hD hP i j hr => by
          rw [(distNear_spec v C ac true slice D hD).2 i i.2 j j.2]
          split
          · next hc =>
            have hne : i ≠ j := fun hh => hc.1 (congrArg Fin.val hh)
            have := hr.pos_dist_of_ne hne
            have := hP i j hr
            omega
          · exact hP i j hr)
        (fun k hk D x y m hx hy hm hD hP _ _ h3 i j hr => by
          rw [setSym_other D _ ?_]; exact hP i j hr
          rintro (⟨e1, e2⟩ | ⟨e1, e2⟩)
          · have := hP i j hr; rw [e1, e2] at this; omega
          · have := hP i j hr; rw [e1, e2, hD.symm y hy x hx] at this; omega)
        (h.next + ac.length) (h.layers it ac.toFinset (-1) (some 1))
        (h.layers it (h.layers it ac.toFinset (-1) (some 1)) (-1) (some 1)) D2 g1 hloop
        ((layers_subset it v _ _ _).trans (Finset.union_subset Finset.subset_union_left (layers_subset it v _ _ _)))
        (layers_subset it v _ _ _) (by have := fuel_enough (h := h) ac; omega)
      rw [e1] at hD
      simp only [Except.ok.injEq] at hD
      rw [← hD]; exact e2 i j hij
  · next hlt =>
    -- no thicker slice: the graph has no edges
    simp only [Except.ok.injEq] at hD
    rw [← hD]
    by_cases he : i = j
    · subst he; simp
    · exfalso
      have hadj : ∃ x y, G.Adj x y := by
        obtain ⟨p⟩ := hij
        cases p with
        | nil => exact absurd rfl he
        | cons ha q => exact ⟨_, _, ha⟩
      obtain ⟨x, y, hxy⟩ := hadj
      obtain ⟨e, hes, hh⟩ := hxy.2
      have hsub : ac.toFinset ⊆ h.layers it ac.toFinset (-1) (some 1) := by
        intro z hz
        rw [C29_layers it v _ hac]
        exact ⟨0, Or.inl ⟨hz, rfl⟩, by norm_num, by norm_num⟩
      have hnot : e ∉ ac.toFinset := by
        intro hee
        rcases hh with ⟨h1, -⟩ | ⟨h1, -⟩
        · exact hac e hee _ (List.mem_toFinset.2 (List.getElem_mem _)) h1
        · exact hac _ (List.mem_toFinset.2 (List.getElem_mem _)) e hee h1
      have : (insert e ac.toFinset).card ≤ (h.layers it ac.toFinset (-1) (some 1)).card :=
        Finset.card_le_card (Finset.insert_subset hes hsub)
      rw [Finset.card_insert_of_notMem hnot] at this
      omega

/-- **C40, not recursive.** With `recursive=False` the entries of an antichain with at least one event next to it are 1 for pairs joined by
one ziczac and -1 for all others. -/
theorem C40_one_step (it : Iter) (v : h.Valid) (C : Finset EId) (ac : List EId)
    (hnd : ac.Nodup) (hac : IsAntichainSet h.Lt ac.toFinset)
    (hthick : ac.toFinset.card < (h.layers it ac.toFinset (-1) (some 1)).card) (D : DMat)
    (hD : h.distanceMatrix it C ac "ziczac" false = .ok D) (i j : Fin ac.length) (hij : i ≠ j) :
    ((ziczacGraph h (h.layers it ac.toFinset (-1) (some 1)) ac).Adj i j → D i j = 1) ∧
    (¬ (ziczacGraph h (h.layers it ac.toFinset (-1) (some 1)) ac).Adj i j → D i j = -1) := by
  unfold distanceMatrix at hD
  simp only [beq_self_eq_true, Bool.not_true, Bool.false_and, Bool.false_eq_true, if_false] at hD
  rw [distWhile.eq_def] at hD
  simp only [hthick, if_true, Bool.not_false, Except.ok.injEq] at hD
  rw [← hD]
  have := distNear_zero v C (h.layers it ac.toFinset (-1) (some 1)) ac hnd hac i j
  exact ⟨this.1, this.2 hij⟩

/-- **C40, isolated antichains.** If no event lies in the layers directly below and above, all entries are 0 (also for different events,
which is why `Antipaths` fails there, see C66). -/
theorem C40_isolated (it : Iter) (C : Finset EId) (ac : List EId) (counting : String) (rec : Bool)
    (hc : counting = "ziczac" ∨ counting = "intersection")
    (hthin : h.layers it ac.toFinset (-1) (some 1) = ac.toFinset) :
    h.distanceMatrix it C ac counting rec = .ok (fun _ _ => 0) := by
  have hc' : (!(counting == "ziczac") && counting != "intersection") = false := by
    rcases hc with rfl | rfl <;> decide
  unfold distanceMatrix
  rw [hc', hthin, distWhile.eq_def]
  simp

/-- a fence: `0, 1 < 3` and `1, 2 < 4` -/
def exFence : Heap :=
  let h1 := (Heap.empty.newEvent Iter.asc none [] []).2
  let h2 := (h1.newEvent Iter.asc none [] []).2
  let h3 := (h2.newEvent Iter.asc none [] []).2
  let h4 := (h3.newEvent Iter.asc none [0, 1] []).2
  (h4.newEvent Iter.asc none [1, 2] []).2

theorem exFence_reach : LinkReachable exFence := by
  refine .new _ _ _ _ _ (.new _ _ _ _ _ (.new _ _ _ _ _ (.new _ _ _ _ _
    (.new _ _ _ _ _ .start ?_ ?_ ?_) ?_ ?_ ?_) ?_ ?_ ?_) ?_ ?_ ?_) ?_ ?_ ?_ <;>
    simp [Heap.Exists, Heap.newEvent_fst] <;> decide

theorem exFence_valid : exFence.Valid := exFence_reach.valid

theorem exFence_thick : [0, 1, 2].toFinset.card < (exFence.layers Iter.asc [0, 1, 2].toFinset (-1) (some 1)).card := by decide

example : LinkReachable exFence ∧ [0, 1, 2].Nodup ∧ IsAntichainSet exFence.Lt [0, 1, 2].toFinset ∧
    [0, 1, 2].toFinset.card < (exFence.layers Iter.asc [0, 1, 2].toFinset (-1) (some 1)).card ∧
    (∃ D, exFence.distanceMatrix Iter.asc {0, 1, 2, 3, 4} [0, 1, 2] "ziczac" true = .ok D ∧
      D 0 1 = 1 ∧ D 1 2 = 1 ∧ D 0 2 = 2) ∧
    (∃ D, exFence.distanceMatrix Iter.asc {0, 1, 2, 3, 4} [0, 1, 2] "ziczac" false = .ok D ∧
      D 0 1 = 1 ∧ D 1 2 = 1 ∧ D 0 2 = -1) ∧
    (ziczacGraph exFence (exFence.layers Iter.asc [0, 1, 2].toFinset (-1) (some 1)) [0, 1, 2]).Reachable 0 2 := by
  refine ⟨exFence_reach, by decide, by unfold IsAntichainSet; decide, by decide, ?_, ?_, ?_⟩
  · exact ⟨_, rfl, by decide, by decide, by decide⟩
  · exact ⟨_, rfl, by decide, by decide, by decide⟩
  · have h01 : (ziczacGraph exFence (exFence.layers Iter.asc [0, 1, 2].toFinset (-1) (some 1)) [0, 1, 2]).Adj 0 1 :=
      ⟨by decide, 3, by decide, Or.inr ⟨by decide, by decide⟩⟩
    have h12 : (ziczacGraph exFence (exFence.layers Iter.asc [0, 1, 2].toFinset (-1) (some 1)) [0, 1, 2]).Adj 1 2 :=
      ⟨by decide, 4, by decide, Or.inr ⟨by decide, by decide⟩⟩
    exact h01.reachable.trans h12.reachable

/-- two unrelated events and nothing else: an isolated antichain -/
example : (Heap.empty.newEvent Iter.asc none [] []).2.layers Iter.asc [0].toFinset (-1) (some 1) = [0].toFinset := by decide

end Causets
