import Verif.Props.Construct
import Mathlib.Data.Fintype.Powerset
import Mathlib.Data.Fintype.BigOperators

/-! # C13: NewSimplex -/

namespace Causets

open Heap

/-! ## `itertools.combinations` -/

theorem mem_combinations {α : Type} : ∀ (k : ℕ) (l f : List α),
    f ∈ combinations k l ↔ f.Sublist l ∧ f.length = k := by
  intro k l
  induction l generalizing k with
  | nil =>
    intro f
    cases k with
    | zero => simp [combinations]
    | succ k =>
      simp only [combinations, List.not_mem_nil, List.sublist_nil, false_iff, not_and]
      rintro rfl; simp
  | cons x xs ih =>
    intro f
    cases k with
    | zero =>
      simp only [combinations, List.mem_singleton, List.length_eq_zero_iff]
      constructor
      · rintro rfl; exact ⟨List.nil_sublist _, rfl⟩
      · exact fun h => h.2
    | succ k =>
      simp only [combinations, List.mem_append, List.mem_map, ih]
      constructor
      · rintro (⟨g, ⟨h1, h2⟩, rfl⟩ | ⟨h1, h2⟩)
        · exact ⟨h1.cons_cons x, by simp [h2]⟩
        · exact ⟨h1.cons x, h2⟩
      · rintro ⟨h1, h2⟩
        cases h1 with
        | cons _ h3 => exact Or.inr ⟨h3, h2⟩
        | cons_cons _ h3 => exact Or.inl ⟨_, ⟨h3, by simpa using h2⟩, rfl⟩

theorem combinations_map {α β : Type} (g : α → β) : ∀ (k : ℕ) (l : List α),
    combinations k (l.map g) = (combinations k l).map (List.map g) := by
  intro k l
  induction l generalizing k with
  | nil => cases k <;> simp [combinations]
  | cons x xs ih =>
    cases k with
    | zero => simp [combinations]
    | succ k => simp [combinations, ih, Function.comp_def]

theorem combinations_nodup {α : Type} : ∀ (k : ℕ) (l : List α), l.Nodup →
    (combinations k l).Nodup := by
  intro k l
  induction l generalizing k with
  | nil => intro _; cases k <;> simp [combinations]
  | cons x xs ih =>
    intro hn
    rw [List.nodup_cons] at hn
    cases k with
    | zero => simp [combinations]
    | succ k =>
      simp only [combinations]
      refine List.Nodup.append ((ih k hn.2).map (fun a b hab => by simpa using hab)) (ih _ hn.2) ?_
      intro f h1 h2
      obtain ⟨g, -, rfl⟩ := List.mem_map.1 h1
      have h3 := ((mem_combinations _ _ _).1 h2).1
      exact hn.1 (h3.subset (by simp))

/-! ## Faces as sublists of the list of vertices -/

/-- sublists of a list without duplicates are determined by their elements -/
theorem filter_mem_sublist {α : Type} [DecidableEq α] {l f : List α} (hn : l.Nodup) (hs : f.Sublist l) :
    l.filter (fun x => decide (x ∈ f)) = f := by
  induction hs with
  | slnil => rfl
  | cons a hs ih =>
    rw [List.nodup_cons] at hn
    have : a ∉ _ := fun hc => hn.1 (hs.subset hc)
    rw [List.filter_cons_of_neg (by simpa using this)]
    exact ih hn.2
  | cons_cons a hs ih =>
    rename_i l1 l2
    rw [List.nodup_cons] at hn
    rw [List.filter_cons_of_pos (by simp)]
    congr 1
    rw [← ih hn.2]
    refine List.filter_congr fun x hx => ?_
    have hxa : x ≠ a := by rintro rfl; exact hn.1 hx
    simp only [List.mem_cons, hxa, false_or, ih hn.2]

theorem sublist_ext {n : ℕ} {f g : List ℕ} (hf : f.Sublist (List.range n))
    (hg : g.Sublist (List.range n)) (h : f.toFinset = g.toFinset) : f = g := by
  rw [← filter_mem_sublist List.nodup_range hf, ← filter_mem_sublist List.nodup_range hg]
  refine List.filter_congr fun x _ => ?_
  have := Finset.ext_iff.1 h x
  simp only [List.mem_toFinset] at this
  simp [this]

theorem sublist_of_subset {n : ℕ} {f g : List ℕ} (hf : f.Sublist (List.range n))
    (hg : g.Sublist (List.range n)) (h : f.toFinset ⊆ g.toFinset) : f.Sublist g := by
  have hfg : ∀ x ∈ f, x ∈ g := fun x hx => by simpa using h (List.mem_toFinset.2 hx)
  have : f = g.filter (fun x => decide (x ∈ f)) := by
    rw [← filter_mem_sublist List.nodup_range hf]
    conv_rhs => rw [← filter_mem_sublist List.nodup_range hg]
    rw [List.filter_filter]
    refine List.filter_congr fun x _ => ?_
    rw [filter_mem_sublist List.nodup_range hf]
    by_cases hx : x ∈ f
    · simp [hx, hfg x hx]
    · simp [hx]
  rw [this]
  exact List.filter_sublist

/-- the ordered list of the vertices of a face -/
def canon (n : ℕ) (S : Finset ℕ) : List ℕ := (List.range n).filter (fun x => decide (x ∈ S))

theorem canon_sublist (n : ℕ) (S : Finset ℕ) : (canon n S).Sublist (List.range n) :=
  List.filter_sublist

theorem mem_canon {n : ℕ} {S : Finset ℕ} {x : ℕ} : x ∈ canon n S ↔ x < n ∧ x ∈ S := by
  simp [canon]

theorem canon_toFinset {n : ℕ} {S : Finset ℕ} (hS : ∀ x ∈ S, x < n) : (canon n S).toFinset = S := by
  ext x
  simp only [List.mem_toFinset, mem_canon]
  exact ⟨fun h => h.2, fun h => ⟨hS x h, h⟩⟩

/-! ## Labels -/

/-- label of a face -/
def faceLabel (f : List ℕ) : String := "-".intercalate (f.map (fun i => toString (i + 1)))

theorem toString_inj {a b : ℕ} (h : toString a = toString b) : a = b := by
  have h1 : (toString a).toList = (toString b).toList := by rw [h]
  rw [Nat.toString_eq_repr, Nat.toString_eq_repr, Nat.toList_repr, Nat.toList_repr] at h1
  rw [← Nat.ofDigitChars_toDigits (b := 10) (n := a) (by decide) (by decide), h1,
    Nat.ofDigitChars_toDigits (by decide) (by decide)]

theorem faceLabel_inj {f g : List ℕ} (hf : f ≠ []) (hg : g ≠ []) (h : faceLabel f = faceLabel g) :
    f = g := by
  have h1 : (faceLabel f).toList = (faceLabel g).toList := by rw [h]
  simp only [faceLabel, String.toList_intercalate, List.map_map] at h1
  have hsep : "-".toList = ['-'] := rfl
  rw [hsep] at h1
  have hno : ∀ (f : List ℕ), ∀ l ∈ f.map (String.toList ∘ fun i => toString (i + 1)), '-' ∉ l := by
    intro f l hl hc
    obtain ⟨i, -, rfl⟩ := List.mem_map.1 hl
    simp only [Function.comp_apply, Nat.toString_eq_repr, Nat.toList_repr] at hc
    have := Nat.isDigit_of_mem_toDigits (by decide) (by decide) hc
    exact absurd this (by decide)
  have h2 := congrArg (List.splitOn '-') h1
  rw [List.splitOn_intercalate '-' (hno f) (by simpa using hf),
    List.splitOn_intercalate '-' (hno g) (by simpa using hg)] at h2
  refine List.map_injective_iff.2 ?_ h2
  intro a b hab
  have h3 : toString (a + 1) = toString (b + 1) := String.toList_inj.1 hab
  have := toString_inj h3
  omega

theorem faceLabel_single (i : ℕ) : faceLabel [i] = toString (i + 1) := by
  simp [faceLabel, String.intercalate_singleton]

/-! ## The construction -/

/-- order of the events in terms of the list of all faces -/
def faceRel (F : List (List ℕ)) (i j : ℕ) : Prop :=
  (F.getD i []).toFinset ⊂ (F.getD j []).toFinset

/-- requirements on the list of all faces, in the order of creation -/
structure FaceList (n : ℕ) (F : List (List ℕ)) : Prop where
  nodup : F.Nodup
  sub : ∀ f ∈ F, f.Sublist (List.range n)
  ne : ∀ f ∈ F, f ≠ []
  le : n ≤ F.length
  vertex : ∀ i < n, F.getD i [] = [i]

variable {n : ℕ} {F : List (List ℕ)} {h0 h : Heap} {m : ℕ}

abbrev FaceBuilt (h0 : Heap) (F : List (List ℕ)) (m : ℕ) (h : Heap) : Prop :=
  Built h0 (faceRel F) (fun i => some (.str (faceLabel (F.getD i [])))) m h

theorem joinLabels_face (fl : FaceList n F) (b : FaceBuilt h0 F m h) (hnm : n ≤ m) {f : List ℕ}
    (hf : f.Sublist (List.range n)) : joinLabels h (f.map (h0.next + ·)) = faceLabel f := by
  unfold joinLabels faceLabel
  congr 1
  rw [List.map_map]
  refine List.map_congr_left fun i hi => ?_
  have hin : i < n := List.mem_range.1 (hf.subset hi)
  simp only [Function.comp_apply]
  rw [b.label i (by omega), fl.vertex i hin, faceLabel_single]

theorem getD_mem {i : ℕ} (hi : i < F.length) : F.getD i [] ∈ F := by
  rw [List.getD_eq_getElem?_getD, List.getElem?_eq_getElem hi]
  exact List.getElem_mem hi

theorem getD_inj (hn : F.Nodup) {i j : ℕ} (hi : i < F.length) (hj : j < F.length)
    (h : F.getD i [] = F.getD j []) : i = j := by
  rw [List.getD_eq_getElem?_getD, List.getElem?_eq_getElem hi, List.getD_eq_getElem?_getD,
    List.getElem?_eq_getElem hj] at h
  exact (hn.getElem_inj_iff).1 h

/-- one face of `k ≥ 2` vertices -/
theorem simplexFace_spec (it : Iter) (v : h0.Valid) (fl : FaceList n F) (k : ℕ) (hk : 2 ≤ k)
    (hnm : n ≤ m) (hm : m < F.length) (b : FaceBuilt h0 F m h)
    (hlen : (F.getD m []).length = k) (hle : ∀ i < m, (F.getD i []).length ≤ k)
    (hall : ∀ f : List ℕ, f.Sublist (List.range n) → f.length = k - 1 →
      ∃ p < m, F.getD p [] = f) :
    ∃ h', simplexFace it k ((F.getD m []).map (h0.next + ·))
        ((List.range m).map (h0.next + ·)).toFinset h =
        (((List.range (m + 1)).map (h0.next + ·)).toFinset, h') ∧ FaceBuilt h0 F (m + 1) h' := by
  have hsub : ∀ i, i < F.length → (F.getD i []).Sublist (List.range n) := fun i hi =>
    fl.sub _ (getD_mem hi)
  have hfm := hsub m hm
  unfold simplexFace
  dsimp only
  rw [joinLabels_face fl b hnm hfm, combinations_map]
  generalize hFP : ((combinations (k - 1) (F.getD m [])).map (List.map (h0.next + ·))).foldl
    (fun acc pf => acc ∪ (((List.range m).map (h0.next + ·)).toFinset).filter
      (fun e => h.label e = some (.str (joinLabels h pf)))) ∅ = FP
  have hmem : ∀ x, x ∈ FP ↔ ∃ p < m, x = h0.next + p ∧
      (F.getD p []).Sublist (F.getD m []) ∧ (F.getD p []).length = k - 1 := by
    intro x
    rw [← hFP, foldl_union_mem]
    simp only [Finset.notMem_empty, false_or, List.mem_map, Finset.mem_filter, List.mem_toFinset,
      List.mem_range]
    constructor
    · rintro ⟨_, ⟨g, hg, rfl⟩, ⟨p, hp, rfl⟩, hl⟩
      rw [mem_combinations] at hg
      rw [b.label p hp, joinLabels_face fl b hnm (hg.1.trans hfm)] at hl
      simp only [Option.some.injEq, Label.str.injEq] at hl
      have := faceLabel_inj (fl.ne _ (getD_mem (hp.trans hm)))
        (by rintro rfl; have := hg.2; simp at this; omega) hl
      exact ⟨p, hp, rfl, by rw [this]; exact hg.1, by rw [this]; exact hg.2⟩
    · rintro ⟨p, hp, rfl, h1, h2⟩
      refine ⟨_, ⟨F.getD p [], (mem_combinations _ _ _).2 ⟨h1, h2⟩, rfl⟩, ⟨p, hp, rfl⟩, ?_⟩
      rw [b.label p hp, joinLabels_face fl b hnm (h1.trans hfm)]
  obtain ⟨e1, b1⟩ := b.step' it v (it.ord [108] FP)
    (fun x hx => by
      obtain ⟨p, hp, rfl, -⟩ := (hmem x).1 ((it.mem _ _ _).1 hx)
      exact ⟨p, hp, rfl⟩)
    (fun i hi => by
      have hi' : i < F.length := hi.trans hm
      constructor
      · intro hr
        have hcard : (F.getD i []).toFinset.card < k := by
          have := Finset.card_lt_card hr
          rwa [List.toFinset_card_of_nodup (hfm.nodup List.nodup_range), hlen] at this
        obtain ⟨T, hT1, hT2, hT3⟩ := Finset.exists_subsuperset_card_eq hr.1
          (show (F.getD i []).toFinset.card ≤ k - 1 by omega) (by
            rw [List.toFinset_card_of_nodup (hfm.nodup List.nodup_range), hlen]; omega)
        have hTn : ∀ x ∈ T, x < n := fun x hx =>
          List.mem_range.1 (hfm.subset (List.mem_toFinset.1 (hT2 hx)))
        have hTl : (canon n T).length = k - 1 := by
          rw [← List.toFinset_card_of_nodup ((canon_sublist n T).nodup List.nodup_range),
            canon_toFinset hTn, hT3]
        obtain ⟨p, hp, hpT⟩ := hall (canon n T) (canon_sublist n T) hTl
        refine ⟨p, hp, (it.mem _ _ _).2 ((hmem _).2 ⟨p, hp, rfl, ?_, by rw [hpT]; exact hTl⟩), ?_⟩
        · rw [hpT]
          exact sublist_of_subset (canon_sublist n T) hfm (by rw [canon_toFinset hTn]; exact hT2)
        · by_cases heq : (F.getD i []).toFinset = T
          · left
            refine getD_inj fl.nodup hi' (hp.trans hm) ?_
            rw [hpT]
            exact sublist_ext (hsub i hi') (canon_sublist n T) (by rw [canon_toFinset hTn, heq])
          · right
            unfold faceRel
            rw [hpT, canon_toFinset hTn]
            exact hT1.ssubset_of_ne heq
      · rintro ⟨p, hp, hpL, hip⟩
        obtain ⟨q, hq, hpq, h1, h2⟩ := (hmem _).1 ((it.mem _ _ _).1 hpL)
        obtain rfl := Nat.add_left_cancel hpq
        have hpm : (F.getD p []).toFinset ⊂ (F.getD m []).toFinset := by
          refine (Finset.ssubset_iff_subset_ne).2 ⟨fun x hx => ?_, fun hc => ?_⟩
          · exact List.mem_toFinset.2 (h1.subset (List.mem_toFinset.1 hx))
          · have := sublist_ext (hsub p (hp.trans hm)) hfm hc
            rw [this, hlen] at h2
            omega
        rcases hip with rfl | hip
        · exact hpm
        · exact hip.trans hpm)
    (fun j hj hr => by
      have h1 := Finset.card_lt_card hr
      have hj' : j < F.length := by omega
      rw [List.toFinset_card_of_nodup (hfm.nodup List.nodup_range),
        List.toFinset_card_of_nodup ((hsub j hj').nodup List.nodup_range), hlen] at h1
      rcases Nat.lt_or_eq_of_le hj with h2 | rfl
      · have := hle j h2; omega
      · omega)
  refine ⟨_, ?_, b1⟩
  rw [e1]
  refine Prod.ext ?_ rfl
  rw [List.range_succ]
  ext x; simp

/-- all faces with `k` vertices -/
theorem simplexFaces_spec (it : Iter) (v : h0.Valid) (fl : FaceList n F) (k : ℕ) (hk : 2 ≤ k) :
    ∀ (fs pre post : List (List ℕ)) (h : Heap), F = pre ++ fs ++ post → n ≤ pre.length →
      FaceBuilt h0 F pre.length h → (∀ f ∈ fs, f.length = k) → (∀ f ∈ pre, f.length ≤ k) →
      (∀ f : List ℕ, f.Sublist (List.range n) → f.length = k - 1 → f ∈ pre) →
      ∃ h', simplexFaces it k (fs.map (List.map (h0.next + ·)))
          ((List.range pre.length).map (h0.next + ·)).toFinset h =
          (((List.range (pre ++ fs).length).map (h0.next + ·)).toFinset, h') ∧
        FaceBuilt h0 F (pre ++ fs).length h' := by
  intro fs
  induction fs with
  | nil =>
    intro pre post h _ _ b _ _ _
    refine ⟨h, ?_, by rw [List.append_nil]; exact b⟩
    rw [List.append_nil]; rfl
  | cons f fs ih =>
    intro pre post h hF hn b hfs hpre hall
    have hgm : F.getD pre.length [] = f := by
      rw [hF, List.getD_eq_getElem?_getD]; simp
    have hgi : ∀ i < pre.length, F.getD i [] = pre.getD i [] := fun i hi => by
      rw [hF, List.getD_eq_getElem?_getD, List.getD_eq_getElem?_getD, List.append_assoc,
        List.getElem?_append_left hi]
    have hm : pre.length < F.length := by rw [hF]; simp
    obtain ⟨h1, e1, b1⟩ := simplexFace_spec it v fl k hk hn hm b (by rw [hgm]; exact hfs f (by simp))
      (fun i hi => by rw [hgi i hi]; exact hpre _ (getD_mem hi))
      (fun g hg hl => by
        obtain ⟨i, hi, rfl⟩ := List.mem_iff_getElem.1 (hall g hg hl)
        refine ⟨i, hi, ?_⟩
        rw [hgi i hi, List.getD_eq_getElem?_getD, List.getElem?_eq_getElem hi]; rfl)
    rw [hgm] at e1
    have hl : (pre ++ [f]).length = pre.length + 1 := by simp
    obtain ⟨h', e2, b2⟩ := ih (pre ++ [f]) post h1 (by rw [hF]; simp) (by omega)
      (by rw [hl]; exact b1) (fun g hg => hfs g (by simp [hg]))
      (fun g hg => by
        rcases List.mem_append.1 hg with hg | hg
        · exact hpre g hg
        · rw [List.mem_singleton.1 hg]; exact (hfs f (by simp)).le)
      (fun g hg hl => List.mem_append_left _ (hall g hg hl))
    rw [hl] at e2
    refine ⟨h', ?_, by rw [show pre ++ f :: fs = pre ++ [f] ++ fs by simp]; exact b2⟩
    rw [List.map_cons, simplexFaces, e1]
    dsimp only
    rw [e2]
    simp

/-- faces with at least two vertices, in the order of creation -/
def facesOf (n : ℕ) (ks : List ℕ) : List (List ℕ) :=
  ks.flatMap (fun k => combinations k (List.range n))

theorem simplexLoop_spec (it : Iter) (v : h0.Valid) (fl : FaceList n F) :
    ∀ (c k : ℕ) (pre post : List (List ℕ)) (h : Heap), 2 ≤ k →
      F = pre ++ facesOf n (List.range' k c) ++ post → n ≤ pre.length →
      FaceBuilt h0 F pre.length h → (∀ f ∈ pre, f.length < k) →
      (∀ f : List ℕ, f.Sublist (List.range n) → f.length = k - 1 → f ∈ pre) →
      ∃ h', simplexLoop it ((List.range n).map (h0.next + ·)) (List.range' k c)
          ((List.range pre.length).map (h0.next + ·)).toFinset h =
          (((List.range (pre ++ facesOf n (List.range' k c)).length).map (h0.next + ·)).toFinset, h') ∧
        FaceBuilt h0 F (pre ++ facesOf n (List.range' k c)).length h' := by
  intro c
  induction c with
  | zero =>
    intro k pre post h _ _ _ b _ _
    refine ⟨h, ?_, ?_⟩
    · simp [simplexLoop, facesOf]
    · simpa [facesOf] using b
  | succ c ih =>
    intro k pre post h hk hF hn b hpre hall
    have hsplit : facesOf n (List.range' k (c + 1)) =
        combinations k (List.range n) ++ facesOf n (List.range' (k + 1) c) := by
      rw [List.range'_succ, facesOf, List.flatMap_cons]; rfl
    rw [hsplit] at hF
    have hlen : ∀ f ∈ combinations k (List.range n), f.length = k := fun f hf =>
      ((mem_combinations _ _ _).1 hf).2
    obtain ⟨h1, e1, b1⟩ := simplexFaces_spec it v fl k hk (combinations k (List.range n)) pre
      (facesOf n (List.range' (k + 1) c) ++ post) h (by rw [hF]; simp) hn b hlen
      (fun f hf => (hpre f hf).le) hall
    obtain ⟨h', e2, b2⟩ := ih (k + 1) (pre ++ combinations k (List.range n)) post h1 (by omega)
      (by rw [hF]; simp) (by simp; omega) b1
      (fun f hf => by
        rcases List.mem_append.1 hf with hf | hf
        · have := hpre f hf; omega
        · rw [hlen f hf]; omega)
      (fun f hf hl => List.mem_append_right _ ((mem_combinations _ _ _).2 ⟨hf, by omega⟩))
    rw [hsplit, ← List.append_assoc]
    refine ⟨h', ?_, b2⟩
    rw [List.range'_succ, simplexLoop, combinations_map, e1]
    exact e2

/-- the list of all faces in the order of creation -/
def allFaces (d : ℕ) (central : Bool) : List (List ℕ) :=
  (List.range (d + 1)).map (fun i => [i]) ++ facesOf (d + 1) (List.range' 2 (d - 1)) ++
    if central && decide (d > 0) then [List.range (d + 1)] else []

theorem mem_facesOf {n : ℕ} {ks : List ℕ} {f : List ℕ} :
    f ∈ facesOf n ks ↔ f.Sublist (List.range n) ∧ f.length ∈ ks := by
  simp only [facesOf, List.mem_flatMap, mem_combinations]
  constructor
  · rintro ⟨k, hk, h1, rfl⟩; exact ⟨h1, hk⟩
  · rintro ⟨h1, h2⟩; exact ⟨_, h2, h1, rfl⟩

theorem facesOf_nodup (n : ℕ) : ∀ ks : List ℕ, ks.Nodup → (facesOf n ks).Nodup := by
  intro ks
  induction ks with
  | nil => intro _; simp [facesOf]
  | cons k ks ih =>
    intro hn
    rw [List.nodup_cons] at hn
    rw [facesOf, List.flatMap_cons]
    refine List.Nodup.append (combinations_nodup _ _ List.nodup_range) (ih hn.2) fun f h1 h2 => ?_
    have h3 := ((mem_combinations _ _ _).1 h1).2
    have h4 := (mem_facesOf.1 h2).2
    exact hn.1 (h3 ▸ h4)

theorem singleton_sublist_range {n : ℕ} {f : List ℕ} (hf : f.Sublist (List.range n))
    (hl : f.length = 1) : ∃ i < n, f = [i] := by
  obtain ⟨i, rfl⟩ := List.length_eq_one_iff.1 hl
  exact ⟨i, List.mem_range.1 (hf.subset (by simp)), rfl⟩

theorem mem_allFaces {d : ℕ} {central : Bool} {f : List ℕ} :
    f ∈ allFaces d central ↔ f.Sublist (List.range (d + 1)) ∧ f ≠ [] ∧
      (central = true ∨ d = 0 ∨ f ≠ List.range (d + 1)) := by
  unfold allFaces
  simp only [List.mem_append, List.mem_map, List.mem_range, mem_facesOf, List.mem_range'_1]
  constructor
  · rintro ((⟨i, hi, rfl⟩ | ⟨h1, h2⟩) | hc)
    · refine ⟨List.singleton_sublist.2 (List.mem_range.2 hi), by simp, ?_⟩
      by_cases hd : d = 0
      · exact Or.inr (Or.inl hd)
      · refine Or.inr (Or.inr fun hc => ?_)
        have := congrArg List.length hc
        simp at this; omega
    · refine ⟨h1, ?_, Or.inr (Or.inr fun hc => ?_)⟩
      · rintro rfl; simp at h2
      · have := congrArg List.length hc
        simp only [List.length_range] at this; omega
    · split_ifs at hc with hcond
      · rw [List.mem_singleton.1 hc]
        simp only [Bool.and_eq_true, decide_eq_true_eq] at hcond
        exact ⟨List.Sublist.refl _, by simp, Or.inl hcond.1⟩
      · simp at hc
  · rintro ⟨h1, h2, h3⟩
    have hle : f.length ≤ d + 1 := by simpa using h1.length_le
    have hpos : 0 < f.length := List.length_pos_iff.2 h2
    by_cases hl1 : f.length = 1
    · obtain ⟨i, hi, rfl⟩ := singleton_sublist_range h1 hl1
      exact Or.inl (Or.inl ⟨i, hi, rfl⟩)
    · by_cases hld : f.length ≤ d
      · exact Or.inl (Or.inr ⟨h1, by omega, by omega⟩)
      · have heq : f = List.range (d + 1) := h1.eq_of_length (by simp; omega)
        right
        rcases h3 with h3 | h3 | h3
        · rw [if_pos (by simp [h3]; omega)]; simp [heq]
        · omega
        · exact absurd heq h3

theorem allFaces_list (d : ℕ) (central : Bool) : FaceList (d + 1) (allFaces d central) where
  nodup := by
    unfold allFaces
    refine List.Nodup.append (List.Nodup.append (List.nodup_range.map fun a b hab => by simpa using hab)
      (facesOf_nodup _ _ List.nodup_range') fun f h1 h2 => ?_) (by split_ifs <;> simp) fun f h1 h2 => ?_
    · obtain ⟨i, -, rfl⟩ := List.mem_map.1 h1
      have := (mem_facesOf.1 h2).2
      simp [List.mem_range'_1] at this
    · split_ifs at h2 with hc
      · simp only [Bool.and_eq_true, decide_eq_true_eq] at hc
        have hf := List.mem_singleton.1 h2
        rcases List.mem_append.1 h1 with h1 | h1
        · obtain ⟨i, -, rfl⟩ := List.mem_map.1 h1
          have := congrArg List.length hf
          simp at this; omega
        · have h3 := (mem_facesOf.1 h1).2
          rw [hf, List.length_range, List.mem_range'_1] at h3
          omega
      · simp at h2
  sub f hf := (mem_allFaces.1 hf).1
  ne f hf := (mem_allFaces.1 hf).2.1
  le := by unfold allFaces; simp
  vertex i hi := by
    unfold allFaces
    rw [List.getD_eq_getElem?_getD, List.append_assoc, List.getElem?_append_left (by simpa using hi)]
    simp [List.getElem?_range hi]

/-- **the whole construction** in terms of numbered faces -/
theorem newSimplex_built (it : Iter) (d : ℕ) (central : Bool) (v : h0.Valid) :
    ∃ h', newSimplex it d central h0 =
        (h'.causetInit it ((List.range (allFaces d central).length).map (h0.next + ·)).toFinset, h') ∧
      FaceBuilt h0 (allFaces d central) (allFaces d central).length h' := by
  have fl := allFaces_list d central
  have hn : ((d : ℤ) + 1).toNat = d + 1 := by omega
  have hd : ((d : ℤ) - 1).toNat = d - 1 := by omega
  -- vertices
  obtain ⟨h1, e1, b1⟩ := Built.newEvents it v (R := faceRel (allFaces d central))
    (lab := fun i => some (.str (faceLabel ((allFaces d central).getD i [])))) (fun _ => []) (d + 1) 0 h0
    (Built.zero v) (fun t _ ht => by
      have hne : ∀ i j, i ≤ t → j ≤ t → ¬ faceRel (allFaces d central) i j := by
        intro i j hi hj hr
        unfold faceRel at hr
        rw [fl.vertex i (by omega), fl.vertex j (by omega)] at hr
        have := Finset.card_lt_card hr
        simp at this
      refine ⟨by simp, fun i hi => ?_, fun j hj => hne t j le_rfl hj⟩
      simp [hne i t hi.le le_rfl])
  rw [Nat.zero_add] at b1
  have hv : (List.range (d + 1)).map (fun i => ((some (.str (toString (i + 1))) : Option Label), ([] : List EId))) =
      (List.range' 0 (d + 1)).map (fun t =>
        ((some (.str (faceLabel ((allFaces d central).getD t []))) : Option Label),
          (([] : List ℕ)).map (h0.next + ·))) := by
    rw [List.range_eq_range']
    refine List.map_congr_left fun i hi => ?_
    rw [fl.vertex i (by have := List.mem_range'_1.1 hi; omega), faceLabel_single]
    rfl
  rw [← hv] at e1
  rw [← List.range_eq_range'] at e1
  -- faces
  have hpl : ((List.range (d + 1)).map (fun i => [i])).length = d + 1 := by simp
  obtain ⟨h2, e2, b2⟩ := simplexLoop_spec it v fl (d - 1) 2 ((List.range (d + 1)).map (fun i => [i]))
    (if central && decide (d > 0) then [List.range (d + 1)] else []) h1 le_rfl rfl (by rw [hpl])
    (by rw [hpl]; exact b1)
    (fun f hf => by obtain ⟨i, -, rfl⟩ := List.mem_map.1 hf; simp)
    (fun f hf hl => by
      obtain ⟨i, hi, rfl⟩ := singleton_sublist_range hf hl
      exact List.mem_map.2 ⟨i, List.mem_range.2 hi, rfl⟩)
  rw [hpl] at e2
  have hks : (List.range (d - 1)).map (· + 2) = List.range' 2 (d - 1) := by
    rw [List.range'_eq_map_range]
    exact List.map_congr_left fun i _ => Nat.add_comm _ _
  unfold newSimplex
  simp only [hn, hd]
  rw [e1]
  dsimp only
  rw [hks, e2]
  dsimp only
  generalize hpre : (List.range (d + 1)).map (fun i => [i]) ++
    facesOf (d + 1) (List.range' 2 (d - 1)) = pre at b2 e2
  by_cases hc : central = true ∧ d > 0
  · have hcond : (central && decide ((d : ℤ) > 0)) = true := by simp [hc.1, hc.2]
    rw [if_pos hcond]
    have hF : allFaces d central = pre ++ [List.range (d + 1)] := by
      unfold allFaces; rw [hpre, if_pos (by simp [hc.1, hc.2])]
    have hFl : (allFaces d central).length = pre.length + 1 := by rw [hF]; simp
    have hgm : (allFaces d central).getD pre.length [] = List.range (d + 1) := by
      rw [hF, List.getD_eq_getElem?_getD]; simp
    have hnm : d + 1 ≤ pre.length := by rw [← hpre]; simp
    rw [joinLabels_face fl b2 hnm (List.Sublist.refl _)]
    have hsub : ∀ i, i < pre.length →
        faceRel (allFaces d central) i pre.length := by
      intro i hi
      unfold faceRel
      rw [hgm]
      have h3 := fl.sub _ (getD_mem (F := allFaces d central) (show i < _ by omega))
      refine (Finset.ssubset_iff_subset_ne).2 ⟨fun x hx => ?_, fun hcc => ?_⟩
      · exact List.mem_toFinset.2 (h3.subset (List.mem_toFinset.1 hx))
      · have h4 := sublist_ext h3 (List.Sublist.refl _) hcc
        rw [← hgm] at h4
        have := getD_inj fl.nodup (by omega) (by omega) h4
        omega
    obtain ⟨e3, b3⟩ := b2.step' it v (it.ord [110] ((List.range pre.length).map (h0.next + ·)).toFinset)
      (fun x hx => by
        rw [it.mem] at hx
        simp only [List.mem_toFinset, List.mem_map, List.mem_range] at hx
        obtain ⟨p, hp, rfl⟩ := hx
        exact ⟨p, hp, rfl⟩)
      (fun i hi => ⟨fun _ => ⟨i, hi, (it.mem _ _ _).2 (by simp [hi]), Or.inl rfl⟩,
        fun _ => hsub i hi⟩)
      (fun j hj hr => by
        rcases Nat.lt_or_eq_of_le hj with h2 | rfl
        · exact (ssubset_irrefl _ ((hsub j h2).trans hr))
        · exact ssubset_irrefl _ hr)
    rw [hgm] at e3 b3
    rw [hFl]
    refine ⟨_, ?_, b3⟩
    rw [e3]
    congr 2
    rw [List.range_succ]
    ext x; simp
  · have hcond : ¬ (central && decide ((d : ℤ) > 0)) = true := by
      simp only [Bool.and_eq_true, decide_eq_true_eq, not_and]
      intro h3 h4; exact hc ⟨h3, by omega⟩
    rw [if_neg hcond]
    have hF : allFaces d central = pre := by
      unfold allFaces; rw [hpre, if_neg (by simpa using hc), List.append_nil]
    rw [hF] at b2 ⊢
    exact ⟨h2, rfl, b2⟩

/-- The faces of a simplex with `n` vertices as the code creates them: the non-empty sets of vertices, without
the set of all vertices if the central face is not wanted (which has no effect on a single vertex). -/
abbrev Face (n : ℕ) (central : Bool) :=
  {s : Finset (Fin n) // s.Nonempty ∧ (central = true ∨ n ≤ 1 ∨ s ≠ Finset.univ)}

/-- **C13.** For every d ≥ 0, `NewSimplex(d, includeCentralFace)` returns one new event for each face, ordered by
strict inclusion. The label of a face joins the numbers 1, …, d+1 of its vertices by dashes. -/
theorem C13_newSimplex (it : Iter) (d : ℕ) (central : Bool) (h : Heap) (v : h.Valid) :
    ∃ (ids : Face (d + 1) central → EId) (h' : Heap),
      newSimplex it d central h = (.ok (Finset.univ.image ids), h') ∧
      h.Realises h' ids (fun a b => a.1 ⊂ b.1) ∧
      (∀ a, h'.label (ids a) = some (.str ("-".intercalate
        (((List.finRange (d + 1)).filter (fun x => decide (x ∈ a.1))).map
          (fun x : Fin (d + 1) => toString (x.val + 1)))))) := by
  obtain ⟨h', e, b⟩ := newSimplex_built it d central v
  have fl := allFaces_list d central
  -- the list of a face
  let toL : Face (d + 1) central → List ℕ := fun a => canon (d + 1) (a.1.image Fin.val)
  have hS : ∀ a : Face (d + 1) central, ∀ x ∈ a.1.image Fin.val, x < d + 1 := fun a x hx => by
    obtain ⟨i, -, rfl⟩ := Finset.mem_image.1 hx
    exact i.2
  have hSet : ∀ a : Face (d + 1) central, (toL a).toFinset = a.1.image Fin.val := fun a =>
    canon_toFinset (hS a)
  have hmem : ∀ a, toL a ∈ allFaces d central := by
    intro a
    rw [mem_allFaces]
    refine ⟨canon_sublist _ _, fun hc => ?_, ?_⟩
    · have h1 := hSet a
      rw [hc] at h1
      obtain ⟨x, hx⟩ := a.2.1
      have : (x : ℕ) ∈ a.1.image Fin.val := Finset.mem_image_of_mem _ hx
      rw [← h1] at this
      simp at this
    · rcases a.2.2 with h1 | h1 | h1
      · exact Or.inl h1
      · exact Or.inr (Or.inl (by omega))
      · refine Or.inr (Or.inr fun hc => h1 ?_)
        have h2 := hSet a
        rw [hc] at h2
        ext x
        simp only [Finset.mem_univ, iff_true]
        have : (x : ℕ) ∈ (List.range (d + 1)).toFinset :=
          List.mem_toFinset.2 (List.mem_range.2 x.2)
        rw [h2] at this
        obtain ⟨y, hy, hxy⟩ := Finset.mem_image.1 this
        rwa [← Fin.ext hxy]
  have hget : ∀ a, (allFaces d central).getD ((allFaces d central).idxOf (toL a)) [] = toL a := by
    intro a
    rw [List.getD_eq_getElem?_getD, List.getElem?_idxOf (hmem a)]; rfl
  have hinj : ∀ a b, toL a = toL b → a = b := by
    intro a b hab
    have h1 : a.1.image Fin.val = b.1.image Fin.val := by rw [← hSet, ← hSet, hab]
    exact Subtype.ext (Finset.image_injective Fin.val_injective h1)
  have hsurj : ∀ k < (allFaces d central).length, ∃ a : Face (d + 1) central,
      (allFaces d central).idxOf (toL a) = k := by
    intro k hk
    have h1 := mem_allFaces.1 (getD_mem hk)
    let s : Finset (Fin (d + 1)) :=
      Finset.univ.filter (fun x => (x : ℕ) ∈ (allFaces d central).getD k [])
    have hs : s.image Fin.val = ((allFaces d central).getD k []).toFinset := by
      ext x
      simp only [s, Finset.mem_image, Finset.mem_filter, Finset.mem_univ, true_and,
        List.mem_toFinset]
      constructor
      · rintro ⟨y, hy, rfl⟩; exact hy
      · intro hx
        exact ⟨⟨x, List.mem_range.1 (h1.1.subset hx)⟩, hx, rfl⟩
    have hsl : canon (d + 1) (s.image Fin.val) = (allFaces d central).getD k [] :=
      sublist_ext (canon_sublist _ _) h1.1 (by
        rw [canon_toFinset, hs]
        intro x hx
        obtain ⟨i, -, rfl⟩ := Finset.mem_image.1 hx
        exact i.2)
    refine ⟨⟨s, ?_, ?_⟩, ?_⟩
    · obtain ⟨x, hx⟩ := List.exists_mem_of_ne_nil _ h1.2.1
      exact ⟨⟨x, List.mem_range.1 (h1.1.subset hx)⟩, by simpa [s] using hx⟩
    · rcases h1.2.2 with h2 | h2 | h2
      · exact Or.inl h2
      · exact Or.inr (Or.inl (by omega))
      · refine Or.inr (Or.inr fun hc => h2 ?_)
        refine sublist_ext h1.1 (List.Sublist.refl _) ?_
        rw [← hs, hc]
        ext x
        simp only [Finset.mem_image, Finset.mem_univ, true_and, List.mem_toFinset, List.mem_range]
        exact ⟨fun ⟨y, hy⟩ => hy ▸ y.2, fun hx => ⟨⟨x, hx⟩, rfl⟩⟩
    · refine getD_inj fl.nodup (List.idxOf_lt_length_iff.2 (hmem _)) hk ?_
      rw [hget]; exact hsl
  have r := b.realises v (fun a : Face (d + 1) central => (allFaces d central).idxOf (toL a))
    (fun a b hab => hinj a b (by
      rw [← hget a, ← hget b]; exact congrArg (fun i => (allFaces d central).getD i []) hab))
    (fun a => List.idxOf_lt_length_iff.2 (hmem a))
    hsurj
    (fun a b => a.1 ⊂ b.1)
    (fun a b => by
      unfold faceRel
      rw [hget, hget, hSet, hSet]
      exact Finset.image_ssubset_image Fin.val_injective)
  refine ⟨_, h', ?_, r, fun a => ?_⟩
  swap
  · rw [b.label _ (List.idxOf_lt_length_iff.2 (hmem a)), hget]
    simp only [toL, faceLabel, canon]
    rw [← List.map_coe_finRange_eq_range, List.filter_map, List.map_map]
    congr 3
    refine congrArg (List.map _) (List.filter_congr fun x _ => ?_)
    simp only [Function.comp_apply, Finset.mem_image, decide_eq_decide]
    exact ⟨fun ⟨y, hy, hxy⟩ => Fin.ext hxy ▸ hy, fun hx => ⟨x, hx, rfl⟩⟩
  rw [e]
  refine Prod.ext ?_ rfl
  have hset : ((List.range (allFaces d central).length).map (h.next + ·)).toFinset =
      Finset.univ.image (fun a : Face (d + 1) central => h.next + (allFaces d central).idxOf (toL a)) := by
    ext x
    simp only [List.mem_toFinset, List.mem_map, List.mem_range, Finset.mem_image, Finset.mem_univ,
      true_and]
    constructor
    · rintro ⟨k, hk, rfl⟩
      obtain ⟨a, rfl⟩ := hsurj k hk
      exact ⟨a, rfl⟩
    · rintro ⟨a, rfl⟩
      exact ⟨_, List.idxOf_lt_length_iff.2 (hmem a), rfl⟩
  simp only
  rw [hset, r.causetInit v it]

/-- **C13, number of events.** 2^(d+1) - 1 with the central face (or d = 0), otherwise 2^(d+1) - 2. -/
theorem C13_count (it : Iter) (d : ℕ) (central : Bool) (h : Heap) (v : h.Valid) :
    ∃ C h', newSimplex it d central h = (.ok C, h') ∧
      C.card = if central = true ∨ d = 0 then 2 ^ (d + 1) - 1 else 2 ^ (d + 1) - 2 := by
  obtain ⟨ids, h', h1, h2, -⟩ := C13_newSimplex it d central h v
  refine ⟨_, h', h1, ?_⟩
  rw [Finset.card_image_of_injective _ h2.injective, Finset.card_univ, Fintype.card_subtype]
  have hcard : (Finset.univ : Finset (Finset (Fin (d + 1)))).card = 2 ^ (d + 1) := by
    rw [Finset.card_univ, Fintype.card_finset, Fintype.card_fin]
  by_cases hc : central = true ∨ d = 0
  · rw [if_pos hc]
    have : (Finset.univ.filter fun s : Finset (Fin (d + 1)) =>
        s.Nonempty ∧ (central = true ∨ d + 1 ≤ 1 ∨ s ≠ Finset.univ)) = Finset.univ.erase ∅ := by
      ext s
      simp only [Finset.mem_filter, Finset.mem_univ, true_and, Finset.mem_erase, and_true,
        Finset.nonempty_iff_ne_empty]
      refine and_iff_left ?_
      rcases hc with hc | hc
      exacts [Or.inl hc, Or.inr (Or.inl (by omega))]
    rw [this, Finset.card_erase_of_mem (Finset.mem_univ _), hcard]
  · rw [if_neg hc]
    push Not at hc
    have : (Finset.univ.filter fun s : Finset (Fin (d + 1)) =>
        s.Nonempty ∧ (central = true ∨ d + 1 ≤ 1 ∨ s ≠ Finset.univ)) =
        (Finset.univ.erase ∅).erase Finset.univ := by
      ext s
      simp only [Finset.mem_filter, Finset.mem_univ, true_and, Finset.mem_erase, and_true,
        Finset.nonempty_iff_ne_empty, hc.1, Bool.false_eq_true, false_or]
      have : ¬ d + 1 ≤ 1 := by omega
      simp only [this, false_or]
      exact and_comm
    rw [this, Finset.card_erase_of_mem, Finset.card_erase_of_mem (Finset.mem_univ _), hcard]
    · rfl
    · simp only [Finset.mem_erase, Finset.mem_univ, and_true]
      exact Finset.univ_nonempty.ne_empty

/-- For negative dimension the causet is empty and no event is created. -/
theorem C13_negative (it : Iter) (d : ℤ) (central : Bool) (h : Heap) (v : h.Valid) (hd : d < 0) :
    newSimplex it d central h = (.ok ∅, h) := by
  have h1 : (d + 1).toNat = 0 := by omega
  have h2 : (d - 1).toNat = 0 := by omega
  unfold newSimplex
  simp only [h1, h2, List.range_zero, List.map_nil, newEvents, simplexLoop, List.toFinset_nil]
  rw [if_neg (by simp; omega), C09_causet_of_closed it v ∅ (by simp) (fun a ha => by simp at ha)]

/-- the theorem applies in every consistent state; the triangle has 7 faces -/
example : exDiamond.Valid ∧ Fintype.card (Face 3 true) = 7 ∧ Fintype.card (Face 3 false) = 6 :=
  ⟨exDiamond_valid, by decide, by decide⟩

end Causets
