import Verif.Props.Permuted

/-! # C60 — `findClosedFences` (causetpermutations.py:295-429) -/

namespace Causets
open Heap

variable {h : Heap}

/-! ## Specification: starts of fences -/

/-- **Specification.** Both lists come from the antichains and their lengths differ by at most one. -/
def FenceLists (P F : List ℕ) (PA FA : Finset ℕ) : Prop :=
  (P ≠ [] ∨ F ≠ []) ∧ P.length ≤ F.length + 1 ∧ F.length ≤ P.length + 1 ∧ (∀ x ∈ P, x ∈ PA) ∧ (∀ x ∈ F, x ∈ FA)

/-- **Specification.** The events of `P` that are related to the `i`-th event of `F` are exactly the `i`-th and the `(i+1)`-th. -/
def Zigzag (lt : ℕ → ℕ → Prop) (P F : List ℕ) : Prop :=
  ∀ i f p q, F[i]? = some f → P[i]? = some p → P[i + 1]? = some q → ∀ x, (x ∈ P ∧ lt x f) ↔ (x = p ∨ x = q)

/-- **Specification.** The fence is closed: the last event of `F` joins the last and the first event of `P`. -/
def ClosedFence (lt : ℕ → ℕ → Prop) (P F : List ℕ) : Prop :=
  P.length = F.length ∧ 1 < P.length ∧ Zigzag lt P F ∧
    ∀ f p p0, F.getLast? = some f → P.getLast? = some p → P.head? = some p0 → ∀ x, (x ∈ P ∧ lt x f) ↔ (x = p ∨ x = p0)

/-- **Specification.** An open start: one more event in `P`, or the last event of `F` is only related to the last event of `P`. -/
def OpenFence (lt : ℕ → ℕ → Prop) (P F : List ℕ) : Prop :=
  Zigzag lt P F ∧ (P.length = F.length + 1 ∨
    (P.length = F.length ∧ ∀ f p, F.getLast? = some f → P.getLast? = some p → ∀ x, (x ∈ P ∧ lt x f) ↔ x = p))

theorem validStart_iff (P F : List EId) (PA FA : Finset EId) : validStart P F PA FA = true ↔ FenceLists P F PA FA := by
  unfold validStart FenceLists
  simp only [Bool.and_eq_true, Bool.or_eq_true, decide_eq_true_eq, List.length_pos_iff, Finset.subset_iff, List.mem_toFinset]
  tauto

theorem zigzag_iff {lt : ℕ → ℕ → Prop} {cone : EId → Finset EId} (hc : ∀ f x, x ∈ cone f ↔ lt x f) (P F : List EId) (hl : P.length ≤ F.length + 1) :
    zigzag cone P F = true ↔ Zigzag lt P F := by
  unfold zigzag Zigzag
  rw [List.all_eq_true]
  simp only [List.mem_range, decide_eq_true_eq]
  constructor
  · intro hz i f p q hf hp hq x
    have hi : i < P.length - 1 := by
      have := (List.getElem?_eq_some_iff.1 hq).1; omega
    have := Finset.ext_iff.1 (hz i hi) x
    simpa [List.getD, hf, hp, hq, hc, and_comm] using this
  · intro hz i hi
    obtain ⟨f, hf⟩ : ∃ f, F[i]? = some f := ⟨_, List.getElem?_eq_getElem (by omega)⟩
    obtain ⟨p, hp⟩ : ∃ f, P[i]? = some f := ⟨_, List.getElem?_eq_getElem (by omega)⟩
    obtain ⟨q, hq⟩ : ∃ f, P[i + 1]? = some f := ⟨_, List.getElem?_eq_getElem (by omega)⟩
    ext x
    have := hz i f p q hf hp hq x
    simpa [List.getD, hf, hp, hq, hc, and_comm] using this

theorem startShape_spec {lt : ℕ → ℕ → Prop} {cone : EId → Finset EId} (hc : ∀ f x, x ∈ cone f ↔ lt x f) (valid : Bool) (P F : List EId)
    (hv : valid = true → P.length ≤ F.length + 1) (hne : P ≠ [] ∨ F ≠ []) :
    ∃ s c, startShape cone valid P F = .ok (s, c) ∧ ((s = true ∧ c = true) ↔ (valid = true ∧ ClosedFence lt P F)) ∧
      (s = true ↔ (valid = true ∧ (ClosedFence lt P F ∨ OpenFence lt P F))) := by
  unfold startShape
  by_cases hl : F.length ≤ P.length
  · rw [if_pos hl]
    by_cases he : P.length = F.length
    · have hP : P ≠ [] := by rintro rfl; simp at he; simp_all [eq_comm]
      have hF : F ≠ [] := by rintro rfl; simp at he; exact hP he
      simp only [if_pos he, List.getLast?_eq_some_getLast hP, List.getLast?_eq_some_getLast hF, List.head?_eq_some_head hP]
      refine ⟨_, _, rfl, ?_⟩
      have e1 : (cone (F.getLast hF) ∩ P.toFinset = {P.getLast hP, P.head hP}) ↔
          ∀ f p p0, F.getLast? = some f → P.getLast? = some p → P.head? = some p0 → ∀ x, (x ∈ P ∧ lt x f) ↔ (x = p ∨ x = p0) := by
        simp [List.getLast?_eq_some_getLast hP, List.getLast?_eq_some_getLast hF, List.head?_eq_some_head hP, Finset.ext_iff, hc, and_comm]
      have e2 : (cone (F.getLast hF) ∩ P.toFinset = {P.getLast hP}) ↔
          ∀ f p, F.getLast? = some f → P.getLast? = some p → ∀ x, (x ∈ P ∧ lt x f) ↔ x = p := by
        simp [List.getLast?_eq_some_getLast hP, List.getLast?_eq_some_getLast hF, Finset.ext_iff, hc, and_comm]
      have e3 := zigzag_iff hc P F (by omega)
      have e4 : ¬ P.length = F.length + 1 := by omega
      simp only [Bool.and_eq_true, Bool.or_eq_true, decide_eq_true_eq, e1, e2, e3]
      unfold ClosedFence OpenFence
      simp only [he, e4, true_and, false_or]
      have e5 : ¬ F.length = F.length + 1 := by omega
      simp only [e5, false_or]
      tauto
    · rw [if_neg he]
      refine ⟨_, _, rfl, ?_, ?_⟩
      · simp [ClosedFence, he]
      · cases valid with
        | false => simp
        | true =>
          have := hv rfl
          have e3 := zigzag_iff hc P F (by omega)
          simp only [Bool.true_and, e3, ClosedFence, OpenFence, he, false_and, true_and, or_false, false_or]
          have h1 : P.length = F.length + 1 := by omega
          exact ⟨fun hz => ⟨hz, h1⟩, fun hz => hz.1⟩
  · rw [if_neg hl]
    refine ⟨_, _, rfl, ?_, ?_⟩
    · simp only [Bool.false_eq_true, false_and, false_iff, ClosedFence]; rintro ⟨-, h1, -⟩; omega
    · simp only [Bool.false_eq_true, false_iff, ClosedFence, OpenFence]; rintro ⟨-, ⟨h1, -⟩ | ⟨-, h1 | ⟨h1, -⟩⟩⟩ <;> omega

/-- the loop never ends if its first round changes nothing -/
theorem fenceLoop_spins (it : Iter) (isN isV : Bool) (st : FenceState)
    (hs : (isN = true ∧ st.fFence.length ≤ st.pFence.length ∧ (st.pFence.length ≠ st.fFence.length → isV = false)) ∨
      (isN = false ∧ isV = true ∧ st.fFence.length = st.pFence.length + 1)) : ∀ fuel, Heap.fenceLoop it h isN isV fuel st = .error .outOfFuel := by
  intro fuel
  induction fuel with
  | zero => rfl
  | succ fuel ih =>
    rw [Heap.fenceLoop]
    rcases hs with ⟨rfl, hl, hv⟩ | ⟨rfl, rfl, hl⟩
    · by_cases he : st.pFence.length = st.fFence.length
      · simp [he, ih]
      · have : isV = false := hv he
        subst this
        have h1 : ¬ st.pFence.length < st.fFence.length := by omega
        simp [he, h1, ih]
    · have h1 : ¬ st.fFence.length < st.pFence.length := by omega
      have h2 : ¬ st.fFence.length = st.pFence.length := by omega
      simp [h1, h2, ih]

/-- **C60, refuted.** What `findClosedFences` does for every start, for ever so many rounds of its loop (`fuel`), in every consistent state: it never finds a closed fence that is not already given.
* two empty lists: IndexError;
* a start that is a closed fence already: the start, as the only fence;
* not the start of a fence: no fences;
* an open start that has the shape `N`, or one more future event: the loop never ends;
* an open start of as many past as future events that has only the other shape: IndexError. -/
theorem C60_refuted (it : Iter) (v : h.Valid) (P F : List EId) (PA FA : Finset EId) (fuel : ℕ) :
    (P = [] → F = [] → h.findClosedFences it fuel P F PA FA = .error .indexError) ∧
    (FenceLists P F PA FA → ClosedFence h.Lt P F → h.findClosedFences it fuel P F PA FA = .ok [(P, F, -1)]) ∧
    (FenceLists P F PA FA → ClosedFence (fun a b => h.Lt b a) F P →
      h.findClosedFences it fuel P F PA FA = .ok [(P, F, 1)] ∨ (ClosedFence h.Lt P F ∨ OpenFence h.Lt P F) ∧ h.findClosedFences it fuel P F PA FA = .ok [(P, F, -1)]) ∧
    ((P ≠ [] ∨ F ≠ []) → ¬ (FenceLists P F PA FA ∧ (ClosedFence h.Lt P F ∨ OpenFence h.Lt P F ∨ ClosedFence (fun a b => h.Lt b a) F P ∨ OpenFence (fun a b => h.Lt b a) F P)) →
      h.findClosedFences it fuel P F PA FA = .ok []) ∧
    (FenceLists P F PA FA → ¬ ClosedFence h.Lt P F → ¬ ClosedFence (fun a b => h.Lt b a) F P →
      (OpenFence h.Lt P F ∨ (OpenFence (fun a b => h.Lt b a) F P ∧ F.length = P.length + 1)) → h.findClosedFences it fuel P F PA FA = .error .outOfFuel) ∧
    (FenceLists P F PA FA → ¬ ClosedFence h.Lt P F → ¬ ClosedFence (fun a b => h.Lt b a) F P → ¬ OpenFence h.Lt P F →
      OpenFence (fun a b => h.Lt b a) F P → F.length = P.length → 0 < fuel → h.findClosedFences it fuel P F PA FA = .error .indexError) := by
  by_cases hne : P ≠ [] ∨ F ≠ []
  · set valid := validStart P F PA FA with hvalid
    have hval := validStart_iff P F PA FA
    rw [← hvalid] at hval
    obtain ⟨sN, cN, eN, hcN, hsN⟩ := startShape_spec (lt := h.Lt) (fun f x => v.past_eq x f) valid P F (fun hv => (hval.1 hv).2.1) hne
    obtain ⟨sV, cV, eV, hcV, hsV⟩ := startShape_spec (lt := fun a b => h.Lt b a) (fun f x => v.future_eq f x) valid F P (fun hv => (hval.1 hv).2.2.1) hne.symm
    unfold findClosedFences
    simp only [← hvalid, eN, eV]
    rw [hval] at hcN hsN hcV hsV
    refine ⟨fun h1 h2 => absurd hne (by simp [h1, h2]), ?_, ?_, ?_, ?_, ?_⟩
    · intro hfl hcl
      obtain ⟨h1, h2⟩ := hcN.2 ⟨hfl, hcl⟩
      simp [h1, h2]
    · intro hfl hcl
      obtain ⟨h1, h2⟩ := hcV.2 ⟨hfl, hcl⟩
      cases sN with
      | false => left; simp [h1, h2]
      | true => right; exact ⟨(hsN.1 rfl).2, by simp [h1, h2]⟩
    · intro _ hno
      have h1 : sN = false := by
        cases sN with
        | false => rfl
        | true => exact absurd ⟨(hsN.1 rfl).1, (hsN.1 rfl).2.elim Or.inl (fun x => Or.inr (Or.inl x))⟩ hno
      have h2 : sV = false := by
        cases sV with
        | false => rfl
        | true => exact absurd ⟨(hsV.1 rfl).1, Or.inr (Or.inr (hsV.1 rfl).2)⟩ hno
      simp [h1, h2]
    · intro hfl hn1 hn2 hop
      have h1 : (sN && cN) = false := by
        by_contra hc
        exact hn1 (hcN.1 (by simpa using hc)).2
      have h2 : (sV && cV) = false := by
        by_contra hc
        exact hn2 (hcV.1 (by simpa using hc)).2
      have h3 : (!sN && !sV) = false := by
        rcases hop with hop | ⟨hop, -⟩
        · simp [hsN.2 ⟨hfl, Or.inr hop⟩]
        · simp [hsV.2 ⟨hfl, Or.inr hop⟩]
      simp only [h1, h2, h3, Bool.or_self, Bool.false_eq_true, if_false]
      apply fenceLoop_spins
      rcases hop with hop | ⟨hop, hlen⟩
      · left
        refine ⟨hsN.2 ⟨hfl, Or.inr hop⟩, ?_, fun hne' => ?_⟩
        · rcases hop.2 with h4 | h4 <;> simp only <;> omega
        · by_contra hc
          have h5 := (hsV.1 (by simpa using hc)).2.resolve_left hn2
          have h6 := hop.2.resolve_right (fun x => hne' x.1)
          rcases h5.2 with h7 | h7 <;> omega
      · right
        refine ⟨?_, hsV.2 ⟨hfl, Or.inr hop⟩, hlen⟩
        by_contra hc
        have h5 := (hsN.1 (by simpa using hc)).2.resolve_left hn1
        rcases h5.2 with h7 | h7 <;> omega
    · intro hfl hn1 hn2 hnop hop hlen hfuel
      have h0 : sN = false := by
        by_contra hc
        exact ((hsN.1 (by simpa using hc)).2).elim hn1 hnop
      have h00 : sV = true := hsV.2 ⟨hfl, Or.inr hop⟩
      have h2 : cV = false := by
        by_contra hc
        exact hn2 (hcV.1 ⟨h00, by simpa using hc⟩).2
      subst h0 h00 h2
      simp only [Bool.false_and, Bool.and_false, Bool.or_self, Bool.false_eq_true, if_false, Bool.not_true]
      obtain ⟨n, rfl⟩ : ∃ n, fuel = n + 1 := ⟨fuel - 1, by omega⟩
      have hP : P ≠ [] := by
        rintro rfl
        simp at hlen; simp [hlen] at hne
      rw [Heap.fenceLoop]
      simp [hlen, List.getLast?_eq_some_getLast hP]
  · push Not at hne
    obtain ⟨rfl, rfl⟩ := hne
    refine ⟨fun _ _ => rfl, fun hf => absurd hf.1 (by simp), fun hf => absurd hf.1 (by simp), fun hf => absurd hf (by simp), fun hf => absurd hf.1 (by simp), fun hf => absurd hf.1 (by simp)⟩

/-- C60: whatever is returned is nothing or the given start. -/
theorem C60_nothing_new (it : Iter) (v : h.Valid) (P F : List EId) (PA FA : Finset EId) (fuel : ℕ) (fs : List Fence)
    (hr : h.findClosedFences it fuel P F PA FA = .ok fs) : fs = [] ∨ fs = [(P, F, -1)] ∨ fs = [(P, F, 1)] := by
  obtain ⟨c1, c2, c3, c4, c5, c6⟩ := C60_refuted it v P F PA FA fuel
  by_cases h0 : P = [] ∧ F = []
  · rw [c1 h0.1 h0.2] at hr; exact absurd hr (by simp)
  have hne : P ≠ [] ∨ F ≠ [] := by by_contra hc; push Not at hc; exact h0 hc
  by_cases hs : FenceLists P F PA FA ∧ (ClosedFence h.Lt P F ∨ OpenFence h.Lt P F ∨ ClosedFence (fun a b => h.Lt b a) F P ∨ OpenFence (fun a b => h.Lt b a) F P)
  · obtain ⟨hf, hs⟩ := hs
    by_cases k1 : ClosedFence h.Lt P F
    · rw [c2 hf k1] at hr; exact Or.inr (Or.inl (Except.ok.inj hr).symm)
    by_cases k2 : ClosedFence (fun a b => h.Lt b a) F P
    · rcases c3 hf k2 with hx | ⟨-, hx⟩
      · rw [hx] at hr; exact Or.inr (Or.inr (Except.ok.inj hr).symm)
      · rw [hx] at hr; exact Or.inr (Or.inl (Except.ok.inj hr).symm)
    by_cases k3 : OpenFence h.Lt P F
    · rw [c5 hf k1 k2 (Or.inl k3)] at hr; exact absurd hr (by simp)
    have k4 : OpenFence (fun a b => h.Lt b a) F P := ((hs.resolve_left k1).resolve_left k3).resolve_left k2
    rcases k4.2 with k5 | ⟨k5, -⟩
    · rw [c5 hf k1 k2 (Or.inr ⟨k4, k5⟩)] at hr; exact absurd hr (by simp)
    · rcases Nat.eq_zero_or_pos fuel with rfl | hpos
      · exfalso
        revert hr
        have hval := validStart_iff P F PA FA
        obtain ⟨sN, cN, eN, hcN, hsN⟩ := startShape_spec (lt := h.Lt) (fun f x => v.past_eq x f) (validStart P F PA FA) P F (fun hv => (hval.1 hv).2.1) hne
        obtain ⟨sV, cV, eV, hcV, hsV⟩ := startShape_spec (lt := fun a b => h.Lt b a) (fun f x => v.future_eq f x) (validStart P F PA FA) F P (fun hv => (hval.1 hv).2.2.1) hne.symm
        rw [hval] at hcN hsN hcV hsV
        have h0 : sN = false := by
          by_contra hc
          exact ((hsN.1 (by simpa using hc)).2).elim k1 k3
        have h00 : sV = true := hsV.2 ⟨hf, Or.inr k4⟩
        have h2 : cV = false := by
          by_contra hc
          exact k2 (hcV.1 ⟨h00, by simpa using hc⟩).2
        subst h0 h00 h2
        unfold findClosedFences
        simp [eN, eV, Heap.fenceLoop]
      · rw [c6 hf k1 k2 k3 k4 k5 hpos] at hr; exact absurd hr (by simp)
  · rw [c4 hne hs] at hr; exact Or.inl (Except.ok.inj hr).symm

/-- C60: the claim is false — for the related pair `0 < 1` of the diamond the call never returns. -/
theorem C60_example (it : Iter) (fuel : ℕ) : exDiamond.findClosedFences it fuel [0] [1] {0} {1, 2} = .error .outOfFuel := by
  refine (C60_refuted it exDiamond_valid [0] [1] {0} {1, 2} fuel).2.2.2.2.1 (by simp [FenceLists]) (fun hc => by simp [ClosedFence] at hc)
    (fun hc => by simp [ClosedFence] at hc) (Or.inl ⟨?_, Or.inr ⟨rfl, ?_⟩⟩)
  · intro i f p q _ _ hq; simp at hq
  · intro f p hf hp x
    simp at hf hp; subst hf hp
    constructor
    · rintro ⟨hx, -⟩; simpa using hx
    · rintro rfl; exact ⟨by simp, by decide⟩

/-- C60: in the order `0, 1 < 2`, `1 < 3`: an open start of the other shape raises IndexError, a list that is no start gives no fence. -/
example : exN.findClosedFences Iter.asc 5 [1, 0] [3, 2] {0, 1} {2, 3} = .error .indexError ∧ exN.findClosedFences Iter.asc 5 [0, 1] [3, 2] {0, 1} {2, 3} = .ok [] :=
  ⟨by rfl, by rfl⟩

/-- 0, 1 < 2, 3 -/
def exCrown2 : Heap :=
  let h1 := (Heap.empty.newEvent Iter.asc (some (.int 1)) [] []).2
  let h2 := (h1.newEvent Iter.asc (some (.int 2)) [] []).2
  let h3 := (h2.newEvent Iter.asc (some (.int 3)) [0, 1] []).2
  (h3.newEvent Iter.asc (some (.int 4)) [0, 1] []).2

/-- C60: a closed fence is returned. -/
example : exCrown2.findClosedFences Iter.asc 5 [0, 1] [2, 3] {0, 1} {2, 3} = .ok [([0, 1], [2, 3], -1)] := by rfl

end Causets
