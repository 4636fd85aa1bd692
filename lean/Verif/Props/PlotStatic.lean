import Verif.Model.Plotting
import Mathlib.Tactic

/-! # C76 — links and the events on them in static plots (causetplotting.py:546-632) -/

namespace Causets

/-- **Specification.** The point at parameter `s` of the straight line from `a` (`s = 0`) to `b` (`s = 1`). -/
noncomputable def onLine (a b : List ℝ) (s : ℝ) : List ℝ := List.zipWith (fun x y => (1 - s) * x + s * y) a b

theorem onLine_getD (a b : List ℝ) (s : ℝ) (hl : a.length = b.length) (k : ℕ) : (onLine a b s).getD k 0 = (1 - s) * a.getD k 0 + s * b.getD k 0 := by
  unfold onLine
  by_cases hk : k < a.length
  · have hk' : k < b.length := hl ▸ hk
    simp only [List.getD_eq_getElem?_getD]
    rw [List.getElem?_eq_getElem (by simp [hk, hk']), List.getElem?_eq_getElem hk, List.getElem?_eq_getElem hk']
    simp
  · have hk' : ¬ k < b.length := hl ▸ hk
    simp only [List.getD_eq_getElem?_getD]
    rw [List.getElem?_eq_none (by simp; omega), List.getElem?_eq_none (by omega), List.getElem?_eq_none (by omega)]
    simp

theorem list_eq_of_getD {a b : List ℝ} (hl : a.length = b.length) (h : ∀ k < a.length, a.getD k 0 = b.getD k 0) : a = b := by
  refine List.ext_getElem hl fun k h1 h2 => ?_
  have := h k h1
  simpa [List.getD_eq_getElem?_getD, List.getElem?_eq_getElem h1, List.getElem?_eq_getElem h2] using this

theorem onLine_zero (a b : List ℝ) (hl : a.length = b.length) : onLine a b 0 = a :=
  list_eq_of_getD (by simp [onLine, hl]) fun k _ => by rw [onLine_getD a b 0 hl]; ring

theorem onLine_one (a b : List ℝ) (hl : a.length = b.length) : onLine a b 1 = b :=
  list_eq_of_getD (by simp [onLine, hl]) fun k _ => by rw [onLine_getD a b 1 hl]; ring

theorem isBetween_iff (a e b : ℝ) : isBetween a e b = true ↔ (a ≤ e ∧ e ≤ b) ∨ (b ≤ e ∧ e ≤ a) := by
  simp only [isBetween, test, Bool.or_eq_true, Bool.and_eq_true, decide_eq_true_eq, ge_iff_le]
  tauto

/-- parameter of a point between `a` and `b` in one coordinate -/
theorem param_mem {a e b : ℝ} (hab : a ≠ b) (h : isBetween a e b = true) : 0 ≤ (e - a) / (b - a) ∧ (e - a) / (b - a) ≤ 1 := by
  rw [isBetween_iff] at h
  rcases lt_or_gt_of_ne hab with hlt | hlt
  · have : 0 < b - a := by linarith
    rw [div_le_one this]
    refine ⟨div_nonneg ?_ this.le, ?_⟩ <;> rcases h with h | h <;> linarith [h.1, h.2]
  · have : b - a < 0 := by linarith
    rw [div_le_one_of_neg this]
    refine ⟨div_nonneg_of_nonpos ?_ this.le, ?_⟩ <;> rcases h with h | h <;> linarith [h.1, h.2]

theorem param_line {a e b a' e' b' : ℝ} (hab : a ≠ b) (hc : (e - a) * (b' - e') - (e' - a') * (b - e) = 0) :
    e' = (1 - (e - a) / (b - a)) * a' + (e - a) / (b - a) * b' := by
  have : b - a ≠ 0 := sub_ne_zero.2 hab.symm
  field_simp
  linarith

/-- exactly collinear events on a link are points of the line -/
theorem isOnLink_line {eps : ℝ} {is3d : Bool} {a e b : List ℝ} (ha : a.length = if is3d then 3 else 2) (he : e.length = a.length) (hb : b.length = a.length)
    (h : isOnLink eps is3d a e b = true) (hz : linkArea is3d a e b = 0) (k : ℕ) (hk : k < a.length) (hab : a.getD k 0 ≠ b.getD k 0) :
    0 ≤ (e.getD k 0 - a.getD k 0) / (b.getD k 0 - a.getD k 0) ∧ (e.getD k 0 - a.getD k 0) / (b.getD k 0 - a.getD k 0) ≤ 1 ∧
    e = onLine a b ((e.getD k 0 - a.getD k 0) / (b.getD k 0 - a.getD k 0)) := by
  unfold isOnLink at h
  simp only [Bool.and_eq_true, Bool.or_eq_true, Bool.not_eq_true'] at h
  obtain ⟨⟨⟨h0, h1⟩, h2⟩, -⟩ := h
  have hlen : (onLine a b ((e.getD k 0 - a.getD k 0) / (b.getD k 0 - a.getD k 0))).length = a.length := by simp [onLine, hb]
  cases is3d with
  | false =>
    simp only [Bool.false_eq_true, if_false] at ha
    simp only [linkArea, Bool.false_eq_true, if_false, abs_eq_zero] at hz
    have hk' : k = 0 ∨ k = 1 := by omega
    refine ⟨?_, ?_, ?_⟩
    · rcases hk' with rfl | rfl
      exacts [(param_mem hab h0).1, (param_mem hab h1).1]
    · rcases hk' with rfl | rfl
      exacts [(param_mem hab h0).2, (param_mem hab h1).2]
    · refine list_eq_of_getD (by rw [hlen, he]) fun j hj => ?_
      rw [onLine_getD _ _ _ hb.symm]
      have hj' : j = 0 ∨ j = 1 := by omega
      rcases hk' with rfl | rfl <;> rcases hj' with rfl | rfl <;> refine param_line hab ?_ <;> linarith
  | true =>
    simp only [if_true] at ha
    simp only [linkArea, if_true] at hz
    rw [Real.sqrt_eq_zero'] at hz
    have z1 : ∀ x y w : ℝ, x ^ 2 + y ^ 2 + w ^ 2 ≤ 0 → x = 0 ∧ y = 0 ∧ w = 0 := by
      intro x y w hh
      refine ⟨?_, ?_, ?_⟩ <;> (apply pow_eq_zero_iff (two_ne_zero) |>.1; nlinarith [sq_nonneg x, sq_nonneg y, sq_nonneg w])
    obtain ⟨c1, c2, c3⟩ := z1 _ _ _ hz
    simp only [Bool.true_eq_false, false_or] at h2
    have hk' : k = 0 ∨ k = 1 ∨ k = 2 := by omega
    refine ⟨?_, ?_, ?_⟩
    · rcases hk' with rfl | rfl | rfl
      exacts [(param_mem hab h0).1, (param_mem hab h1).1, (param_mem hab h2).1]
    · rcases hk' with rfl | rfl | rfl
      exacts [(param_mem hab h0).2, (param_mem hab h1).2, (param_mem hab h2).2]
    · refine list_eq_of_getD (by rw [hlen, he]) fun j hj => ?_
      rw [onLine_getD _ _ _ hb.symm]
      have hj' : j = 0 ∨ j = 1 ∨ j = 2 := by omega
      rcases hk' with rfl | rfl | rfl <;> rcases hj' with rfl | rfl | rfl <;> refine param_line hab ?_ <;> linarith

/-! ## The sorting order -/

theorem lexLe_iff (p q : List ℝ) : (lexLe false p q = true ↔ p.getD 1 0 < q.getD 1 0 ∨ (p.getD 1 0 = q.getD 1 0 ∧ p.getD 0 0 ≤ q.getD 0 0)) ∧
    (lexLe true p q = true ↔ p.getD 2 0 < q.getD 2 0 ∨ (p.getD 2 0 = q.getD 2 0 ∧ (p.getD 1 0 < q.getD 1 0 ∨ (p.getD 1 0 = q.getD 1 0 ∧ p.getD 0 0 ≤ q.getD 0 0)))) := by
  constructor <;> simp [lexLe, test]

theorem lexLe_trans (is3d : Bool) (p q r : List ℝ) (h1 : lexLe is3d p q = true) (h2 : lexLe is3d q r = true) : lexLe is3d p r = true := by
  cases is3d
  · rw [(lexLe_iff _ _).1] at *
    rcases h1 with h1 | ⟨h1, h1'⟩ <;> rcases h2 with h2 | ⟨h2, h2'⟩
    · exact Or.inl (h1.trans h2)
    · exact Or.inl (h2 ▸ h1)
    · exact Or.inl (h1 ▸ h2)
    · exact Or.inr ⟨h1.trans h2, h1'.trans h2'⟩
  · rw [(lexLe_iff _ _).2] at *
    rcases h1 with h1 | ⟨h1, h1'⟩ <;> rcases h2 with h2 | ⟨h2, h2'⟩
    · exact Or.inl (h1.trans h2)
    · exact Or.inl (h2 ▸ h1)
    · exact Or.inl (h1 ▸ h2)
    · refine Or.inr ⟨h1.trans h2, ?_⟩
      rcases h1' with h3 | ⟨h3, h3'⟩ <;> rcases h2' with h4 | ⟨h4, h4'⟩
      · exact Or.inl (h3.trans h4)
      · exact Or.inl (h4 ▸ h3)
      · exact Or.inl (h3 ▸ h4)
      · exact Or.inr ⟨h3.trans h4, h3'.trans h4'⟩

theorem lexLe_total (is3d : Bool) (p q : List ℝ) : (lexLe is3d p q || lexLe is3d q p) = true := by
  rw [Bool.or_eq_true]
  have two : ∀ p q : List ℝ, (p.getD 1 0 < q.getD 1 0 ∨ (p.getD 1 0 = q.getD 1 0 ∧ p.getD 0 0 ≤ q.getD 0 0)) ∨
      (q.getD 1 0 < p.getD 1 0 ∨ (q.getD 1 0 = p.getD 1 0 ∧ q.getD 0 0 ≤ p.getD 0 0)) := by
    intro p q
    rcases lt_trichotomy (p.getD 1 0) (q.getD 1 0) with h | h | h
    · exact Or.inl (Or.inl h)
    · rcases le_total (p.getD 0 0) (q.getD 0 0) with h' | h'
      · exact Or.inl (Or.inr ⟨h, h'⟩)
      · exact Or.inr (Or.inr ⟨h.symm, h'⟩)
    · exact Or.inr (Or.inl h)
  cases is3d
  · rw [(lexLe_iff _ _).1, (lexLe_iff _ _).1]; exact two p q
  · rw [(lexLe_iff _ _).2, (lexLe_iff _ _).2]
    rcases lt_trichotomy (p.getD 2 0) (q.getD 2 0) with h | h | h
    · exact Or.inl (Or.inl h)
    · rcases two p q with h' | h'
      · exact Or.inl (Or.inr ⟨h, h'⟩)
      · exact Or.inr (Or.inr ⟨h.symm, h'⟩)
    · exact Or.inr (Or.inl h)

/-- on a line the order of `lexsort` is the order of the parameters, or its reverse -/
theorem lexLe_line (is3d : Bool) {a b : List ℝ} (ha : a.length = if is3d then 3 else 2) (hb : b.length = a.length) (hab : a ≠ b) :
    (∀ s t, lexLe is3d (onLine a b s) (onLine a b t) = true → s ≤ t) ∨ (∀ s t, lexLe is3d (onLine a b s) (onLine a b t) = true → t ≤ s) := by
  have lin : ∀ (k : ℕ) (s t : ℝ), (onLine a b t).getD k 0 - (onLine a b s).getD k 0 = (t - s) * (b.getD k 0 - a.getD k 0) := by
    intro k s t
    rw [onLine_getD _ _ _ hb.symm, onLine_getD _ _ _ hb.symm]; ring
  have two : (is3d = false ∨ a.getD 2 0 = b.getD 2 0) → (a.getD 1 0 ≠ b.getD 1 0 ∨ a.getD 0 0 ≠ b.getD 0 0) →
      (∀ s t, lexLe is3d (onLine a b s) (onLine a b t) = true → s ≤ t) ∨ (∀ s t, lexLe is3d (onLine a b s) (onLine a b t) = true → t ≤ s) := by
    intro h2 hne
    have red : ∀ s t, lexLe is3d (onLine a b s) (onLine a b t) = true → (onLine a b s).getD 1 0 < (onLine a b t).getD 1 0 ∨
        ((onLine a b s).getD 1 0 = (onLine a b t).getD 1 0 ∧ (onLine a b s).getD 0 0 ≤ (onLine a b t).getD 0 0) := by
      intro s t hst
      cases is3d
      · exact (lexLe_iff _ _).1.1 hst
      · have h2' := h2.resolve_left (by simp)
        rcases (lexLe_iff _ _).2.1 hst with h | ⟨-, h⟩
        · have := lin 2 s t; rw [h2', sub_self, mul_zero] at this; linarith
        · exact h
    by_cases h1 : a.getD 1 0 = b.getD 1 0
    · have h0 := hne.resolve_left (not_not.2 h1)
      rcases lt_or_gt_of_ne h0 with hl | hl
      · left; intro s t hst
        have l1 := lin 1 s t; have l0 := lin 0 s t
        rw [h1, sub_self, mul_zero] at l1
        rcases red s t hst with h | ⟨-, h⟩
        · linarith
        · by_contra hc; push Not at hc; nlinarith
      · right; intro s t hst
        have l1 := lin 1 s t; have l0 := lin 0 s t
        rw [h1, sub_self, mul_zero] at l1
        rcases red s t hst with h | ⟨-, h⟩
        · linarith
        · by_contra hc; push Not at hc; nlinarith
    · rcases lt_or_gt_of_ne h1 with hl | hl
      · left; intro s t hst
        have l1 := lin 1 s t
        rcases red s t hst with h | ⟨h, -⟩ <;> (by_contra hc; push Not at hc; nlinarith)
      · right; intro s t hst
        have l1 := lin 1 s t
        rcases red s t hst with h | ⟨h, -⟩ <;> (by_contra hc; push Not at hc; nlinarith)
  have hex : ∃ k < a.length, a.getD k 0 ≠ b.getD k 0 := by
    by_contra hc
    push Not at hc
    exact hab (list_eq_of_getD hb.symm hc)
  cases is3d with
  | false =>
    simp only [Bool.false_eq_true, if_false] at ha
    refine two (Or.inl rfl) ?_
    obtain ⟨k, hk, hne⟩ := hex
    have hk' : k = 0 ∨ k = 1 := by omega
    rcases hk' with rfl | rfl
    exacts [Or.inr hne, Or.inl hne]
  | true =>
    simp only [if_true] at ha
    by_cases h2 : a.getD 2 0 = b.getD 2 0
    · refine two (Or.inr h2) ?_
      obtain ⟨k, hk, hne⟩ := hex
      have hk' : k = 0 ∨ k = 1 ∨ k = 2 := by omega
      rcases hk' with rfl | rfl | rfl
      exacts [Or.inr hne, Or.inl hne, absurd h2 hne]
    · rcases lt_or_gt_of_ne h2 with hl | hl
      · left; intro s t hst
        have l1 := lin 2 s t
        rcases (lexLe_iff _ _).2.1 hst with h | ⟨h, -⟩ <;> (by_contra hc; push Not at hc; nlinarith)
      · right; intro s t hst
        have l1 := lin 2 s t
        rcases (lexLe_iff _ _).2.1 hst with h | ⟨h, -⟩ <;> (by_contra hc; push Not at hc; nlinarith)

/-! ## The points of a link -/

/-- **C76, near the link.** An event counts as being on the link exactly if it is in the box spanned by the two events and the parallelogram of the two vectors from it to them
has an area below the tolerance (in three dimensions the sum of the squared components of the vector product is below the square of the tolerance). -/
theorem C76_on_link {eps : ℝ} (h0 : 0 < eps) (a0 a1 a2 e0 e1 e2 b0 b1 b2 : ℝ) :
    (isOnLink eps false [a0, a1] [e0, e1] [b0, b1] = true ↔ e0 ∈ Set.uIcc a0 b0 ∧ e1 ∈ Set.uIcc a1 b1 ∧
      ((a0 - e0) * (b1 - e1) - (a1 - e1) * (b0 - e0)) ^ 2 < eps ^ 2) ∧
    (isOnLink eps true [a0, a1, a2] [e0, e1, e2] [b0, b1, b2] = true ↔ e0 ∈ Set.uIcc a0 b0 ∧ e1 ∈ Set.uIcc a1 b1 ∧ e2 ∈ Set.uIcc a2 b2 ∧
      ((a1 - e1) * (b2 - e2) - (a2 - e2) * (b1 - e1)) ^ 2 + ((a2 - e2) * (b0 - e0) - (a0 - e0) * (b2 - e2)) ^ 2 +
        ((a0 - e0) * (b1 - e1) - (a1 - e1) * (b0 - e0)) ^ 2 < eps ^ 2) := by
  have hb : ∀ a e b : ℝ, isBetween a e b = true ↔ e ∈ Set.uIcc a b := by
    intro a e b
    simp only [isBetween, test, Bool.or_eq_true, Bool.and_eq_true, decide_eq_true_eq, Set.mem_uIcc, ge_iff_le]
    tauto
  constructor
  · simp only [isOnLink, Bool.and_eq_true, hb, List.getD_cons_zero, List.getD_cons_succ, Bool.not_false, Bool.true_or, and_true, test, decide_eq_true_eq, linkArea,
      Bool.false_eq_true, if_false, and_assoc]
    rw [show ((a0 - e0) * (b1 - e1) - (a1 - e1) * (b0 - e0)) ^ 2 = ((e0 - a0) * (b1 - e1) - (e1 - a1) * (b0 - e0)) ^ 2 by ring, sq_lt_sq, abs_of_pos h0]
  · simp only [isOnLink, Bool.and_eq_true, hb, List.getD_cons_zero, List.getD_cons_succ, Bool.not_true, Bool.false_or, test, decide_eq_true_eq, linkArea, if_true, and_assoc]
    rw [Real.sqrt_lt' h0]
    have : ((a1 - e1) * (b2 - e2) - (a2 - e2) * (b1 - e1)) ^ 2 + ((a2 - e2) * (b0 - e0) - (a0 - e0) * (b2 - e2)) ^ 2 +
        ((a0 - e0) * (b1 - e1) - (a1 - e1) * (b0 - e0)) ^ 2 = ((e1 - a1) * (b2 - e2) - (e2 - a2) * (b1 - e1)) ^ 2 +
        ((e2 - a2) * (b0 - e0) - (e0 - a0) * (b2 - e2)) ^ 2 + ((e0 - a0) * (b1 - e1) - (e1 - a1) * (b0 - e0)) ^ 2 := by ring
    rw [this]

/-- **C76, the points.** The line drawn for a link runs through its two events and exactly those other events of the plot that are in the box between them and within the tolerance, each as often as it is in the list. -/
theorem C76_points (eps : ℝ) (is3d : Bool) (dims : List ℤ) (co : EId → Point) (events : List EId) (a b : EId) :
    (staticPoints eps is3d dims co events a b).Perm
      (axesOf dims (co a) :: axesOf dims (co b) :: (events.filter (fun e => decide (e ≠ a) && decide (e ≠ b) &&
        isOnLink eps is3d (axesOf dims (co a)) (axesOf dims (co e)) (axesOf dims (co b)))).map (fun e => axesOf dims (co e))) := by
  have base : ∀ (x y : List ℝ) (l : List (List ℝ)), ([x] ++ l ++ [y]).Perm (x :: y :: l) := by
    intro x y l
    simp only [List.cons_append, List.nil_append]
    exact List.Perm.cons x (List.perm_append_comm (l₁ := l) (l₂ := [y]))
  unfold staticPoints
  simp only
  split
  · exact (List.mergeSort_perm _ _).trans (base _ _ _)
  · exact base _ _ _

theorem head_of_sorted {S : List ℝ} (hs : S.Pairwise (· ≤ ·)) {m : ℝ} (hm : m ∈ S) (hb : ∀ s ∈ S, m ≤ s) : S.head? = some m := by
  cases S with
  | nil => simp at hm
  | cons x t =>
    rcases List.mem_cons.1 hm with rfl | h
    · rfl
    · have h1 := (List.pairwise_cons.1 hs).1 m h
      have h2 := hb x (by simp)
      simp [le_antisymm h1 h2]

theorem getLast_of_sorted {S : List ℝ} (hs : S.Pairwise (· ≤ ·)) {m : ℝ} (hm : m ∈ S) (hb : ∀ s ∈ S, s ≤ m) : S.getLast? = some m := by
  have h1 : (S.reverse.map (fun x => -x)).Pairwise (· ≤ ·) := by
    rw [List.pairwise_map, List.pairwise_reverse]
    exact hs.imp (fun h => by simpa using h)
  have := head_of_sorted h1 (m := -m) (List.mem_map.2 ⟨m, by simpa using hm, rfl⟩) (by
    intro s hs'
    obtain ⟨x, hx, rfl⟩ := List.mem_map.1 hs'
    have := hb x (by simpa using hx)
    linarith)
  rw [List.head?_map, List.head?_reverse] at this
  cases h : S.getLast? with
  | none => rw [h] at this; simp at this
  | some x => rw [h] at this; simp at this; rw [this]

/-- **C76, the order of the points.** If the events that are put on the link lie exactly on it, then the points are drawn in their order along the link, from one of its two events to the other one (in 2 and 3 dimensions). -/
theorem C76_order (eps : ℝ) (is3d : Bool) (dims : List ℤ) (hd : dims.length = if is3d then 3 else 2) (co : EId → Point) (events : List EId) (a b : EId)
    (hab : axesOf dims (co a) ≠ axesOf dims (co b))
    (hz : ∀ e ∈ events, e ≠ a → e ≠ b → isOnLink eps is3d (axesOf dims (co a)) (axesOf dims (co e)) (axesOf dims (co b)) = true →
      linkArea is3d (axesOf dims (co a)) (axesOf dims (co e)) (axesOf dims (co b)) = 0) :
    ∃ S : List ℝ, (∀ s ∈ S, 0 ≤ s ∧ s ≤ 1) ∧ staticPoints eps is3d dims co events a b = S.map (onLine (axesOf dims (co a)) (axesOf dims (co b))) ∧
      ((S.Pairwise (· ≤ ·) ∧ S.head? = some 0 ∧ S.getLast? = some 1) ∨ (S.Pairwise (· ≥ ·) ∧ S.head? = some 1 ∧ S.getLast? = some 0)) := by
  set ca := axesOf dims (co a) with hca
  set cb := axesOf dims (co b) with hcb
  have la : ca.length = if is3d then 3 else 2 := by rw [hca, axesOf, List.length_map, hd]
  have lb : cb.length = ca.length := by rw [hca, hcb, axesOf, axesOf, List.length_map, List.length_map]
  obtain ⟨k, hk, hne⟩ : ∃ k < ca.length, ca.getD k 0 ≠ cb.getD k 0 := by
    by_contra hc
    push Not at hc
    exact hab (list_eq_of_getD lb.symm hc)
  let φ : List ℝ → ℝ := fun p => (p.getD k 0 - ca.getD k 0) / (cb.getD k 0 - ca.getD k 0)
  have hk0 : cb.getD k 0 - ca.getD k 0 ≠ 0 := sub_ne_zero.2 hne.symm
  have φa : φ ca = 0 := by simp [φ]
  have φb : φ cb = 1 := div_self hk0
  set inner := (events.filter (fun e => decide (e ≠ a) && decide (e ≠ b) && isOnLink eps is3d ca (axesOf dims (co e)) cb)).map (fun e => axesOf dims (co e)) with hinner
  have hin : ∀ p ∈ inner, 0 ≤ φ p ∧ φ p ≤ 1 ∧ p = onLine ca cb (φ p) := by
    intro p hp
    obtain ⟨e, he, rfl⟩ := List.mem_map.1 hp
    rw [List.mem_filter] at he
    obtain ⟨he1, he2⟩ := he
    simp only [Bool.and_eq_true, decide_eq_true_eq] at he2
    exact isOnLink_line la (by rw [hca, axesOf, axesOf, List.length_map, List.length_map]) lb he2.2 (hz e he1 he2.1.1 he2.1.2 he2.2) k hk hne
  have hall : ∀ p ∈ [ca] ++ inner ++ [cb], 0 ≤ φ p ∧ φ p ≤ 1 ∧ p = onLine ca cb (φ p) := by
    intro p hp
    rw [List.mem_append, List.mem_append, List.mem_singleton, List.mem_singleton] at hp
    rcases hp with (rfl | hp) | rfl
    · rw [φa, onLine_zero _ _ lb.symm]; norm_num
    · exact hin p hp
    · rw [φb, onLine_one _ _ lb.symm]; norm_num
  have hsp : staticPoints eps is3d dims co events a b = if 3 < ([ca] ++ inner ++ [cb]).length then ([ca] ++ inner ++ [cb]).mergeSort (lexLe is3d) else [ca] ++ inner ++ [cb] := rfl
  rw [hsp]
  have hmap : ∀ X : List (List ℝ), (∀ p ∈ X, p = onLine ca cb (φ p)) → X = (X.map φ).map (onLine ca cb) := by
    intro X hX
    rw [List.map_map]
    conv_lhs => rw [← List.map_id X]
    exact List.map_congr_left fun p hp => hX p hp
  split
  · have hmem : ∀ p, p ∈ ([ca] ++ inner ++ [cb]).mergeSort (lexLe is3d) ↔ p ∈ [ca] ++ inner ++ [cb] := fun p => (List.mergeSort_perm _ _).mem_iff
    set X := ([ca] ++ inner ++ [cb]).mergeSort (lexLe is3d) with hX
    have hsorted : X.Pairwise (fun p q => lexLe is3d p q = true) :=
      List.pairwise_mergeSort (le := lexLe is3d) (lexLe_trans is3d) (lexLe_total is3d) _
    have hX' : ∀ p ∈ X, 0 ≤ φ p ∧ φ p ≤ 1 ∧ p = onLine ca cb (φ p) := fun p hp => hall p ((hmem p).1 hp)
    have h0 : (0 : ℝ) ∈ X.map φ := List.mem_map.2 ⟨ca, (hmem _).2 (by simp), φa⟩
    have h1 : (1 : ℝ) ∈ X.map φ := List.mem_map.2 ⟨cb, (hmem _).2 (by simp), φb⟩
    have hb0 : ∀ s ∈ X.map φ, 0 ≤ s ∧ s ≤ 1 := by
      intro s hs
      obtain ⟨p, hp, rfl⟩ := List.mem_map.1 hs
      exact ⟨(hX' p hp).1, (hX' p hp).2.1⟩
    refine ⟨X.map φ, hb0, hmap X (fun p hp => (hX' p hp).2.2), ?_⟩
    rcases lexLe_line is3d la lb hab with hle | hle
    · left
      have hp : (X.map φ).Pairwise (· ≤ ·) := by
        rw [List.pairwise_map]
        refine hsorted.imp_of_mem fun {p q} hp hq hpq => ?_
        rw [(hX' p hp).2.2, (hX' q hq).2.2] at hpq
        exact hle _ _ hpq
      exact ⟨hp, head_of_sorted hp h0 (fun s hs => (hb0 s hs).1), getLast_of_sorted hp h1 (fun s hs => (hb0 s hs).2)⟩
    · right
      have hp : (X.map φ).Pairwise (· ≥ ·) := by
        rw [List.pairwise_map]
        refine hsorted.imp_of_mem fun {p q} hp hq hpq => ?_
        rw [(hX' p hp).2.2, (hX' q hq).2.2] at hpq
        exact hle _ _ hpq
      have hr : (X.map φ).reverse.Pairwise (· ≤ ·) := by rw [List.pairwise_reverse]; exact hp
      refine ⟨hp, ?_, ?_⟩
      · have := getLast_of_sorted hr (m := 1) (by rw [List.mem_reverse]; exact h1) (fun s hs => (hb0 s (List.mem_reverse.1 hs)).2)
        rwa [List.getLast?_reverse] at this
      · have := head_of_sorted hr (m := 0) (by rw [List.mem_reverse]; exact h0) (fun s hs => (hb0 s (List.mem_reverse.1 hs)).1)
        rwa [List.head?_reverse] at this
  · rename_i hlen
    simp only [List.length_append, List.length_singleton] at hlen
    have hb0 : ∀ s ∈ ([ca] ++ inner ++ [cb]).map φ, 0 ≤ s ∧ s ≤ 1 := by
      intro s hs
      obtain ⟨p, hp, rfl⟩ := List.mem_map.1 hs
      exact ⟨(hall p hp).1, (hall p hp).2.1⟩
    refine ⟨([ca] ++ inner ++ [cb]).map φ, hb0, hmap _ (fun p hp => (hall p hp).2.2), Or.inl ?_⟩
    match hi : inner with
    | [] => simp [φa, φb]
    | [p] =>
      have := hall p (by simp)
      simp [φa, φb, this.1, this.2.1]
    | _ :: _ :: _ => simp at hlen; omega

/-- **C76, markers.** Exactly the points between the ends of the line are marked. -/
theorem C76_markers (eps : ℝ) (is3d : Bool) (dims : List ℤ) (co : EId → Point) (events : List EId) (a b : EId) :
    ∃ art, staticArt eps is3d dims co events a b = some art ∧ art.pts = staticPoints eps is3d dims co events a b ∧
      ∀ k, k ∈ art.markevery ↔ 0 < k ∧ k + 1 < art.pts.length := by
  refine ⟨_, rfl, rfl, fun k => ?_⟩
  simp only [List.mem_map, List.mem_range]
  constructor
  · rintro ⟨j, hj, rfl⟩; omega
  · rintro ⟨h1, h2⟩; exact ⟨k - 1, by omega, by omega⟩

/-- **C76, refuted for almost collinear events.** With the tolerance of the code, the line of a link may start at another event: for a link from (1, 0) to (0, 10⁻⁸) that passes events at (1/2, 0) and (1/4, 0) within the
tolerance, the line that is drawn begins neither at the one nor at the other event of the link. -/
theorem C76_tolerance_refuted : ∃ (co : EId → Point) (events : List EId), events.Nodup ∧ 0 ∈ events ∧ 3 ∈ events ∧
    (staticPoints (1 / 10 ^ 7) false [0, 1] co events 0 3).head? ≠ some (axesOf [0, 1] (co 0)) ∧
    (staticPoints (1 / 10 ^ 7) false [0, 1] co events 0 3).head? ≠ some (axesOf [0, 1] (co 3)) := by
  let co : EId → Point := fun e k => if k = 0 then (if e = 0 then 1 else if e = 1 then 1 / 2 else if e = 2 then 1 / 4 else 0)
    else (if e = 3 then 1 / 10 ^ 8 else 0)
  have c0 : axesOf [0, 1] (co 0) = [1, 0] := by simp [axesOf, co]
  have c1 : axesOf [0, 1] (co 1) = [1 / 2, 0] := by simp [axesOf, co]
  have c2 : axesOf [0, 1] (co 2) = [1 / 4, 0] := by simp [axesOf, co]
  have c3 : axesOf [0, 1] (co 3) = [0, 1 / 10 ^ 8] := by simp [axesOf, co]
  have o1 : isOnLink (1 / 10 ^ 7) false [1, 0] [1 / 2, 0] [0, 1 / 10 ^ 8] = true := by
    simp only [isOnLink, linkArea, isBetween, test]
    norm_num
  have o2 : isOnLink (1 / 10 ^ 7) false [1, 0] [1 / 4, 0] [0, 1 / 10 ^ 8] = true := by
    simp only [isOnLink, linkArea, isBetween, test]
    norm_num
  refine ⟨co, [0, 1, 2, 3], by decide, by decide, by decide, ?_⟩
  have hsp : staticPoints (1 / 10 ^ 7) false [0, 1] co [0, 1, 2, 3] 0 3 = [[1, 0], [1 / 2, 0], [1 / 4, 0], [0, 1 / 10 ^ 8]].mergeSort (lexLe false) := by
    unfold staticPoints
    simp only [List.filter_cons, c0, c1, c2, c3, o1, o2, List.filter_nil]
    norm_num
    rw [c1, c2]
  rw [hsp, c0, c3]
  have hs : (([[1, 0], [1 / 2, 0], [1 / 4, 0], [0, 1 / 10 ^ 8]] : List (List ℝ)).mergeSort (lexLe false)).Pairwise (fun p q => lexLe false p q = true) :=
    List.pairwise_mergeSort (le := lexLe false) (lexLe_trans false) (lexLe_total false) _
  have hm : ∀ p, p ∈ ([[1, 0], [1 / 2, 0], [1 / 4, 0], [0, 1 / 10 ^ 8]] : List (List ℝ)).mergeSort (lexLe false) ↔
      p ∈ ([[1, 0], [1 / 2, 0], [1 / 4, 0], [0, 1 / 10 ^ 8]] : List (List ℝ)) := fun p => (List.mergeSort_perm _ _).mem_iff
  generalize ([[1, 0], [1 / 2, 0], [1 / 4, 0], [0, 1 / 10 ^ 8]] : List (List ℝ)).mergeSort (lexLe false) = X at hs hm
  cases X with
  | nil => simp
  | cons x t =>
    have hx : ∀ q ∈ x :: t, q ≠ x → lexLe false x q = true := by
      intro q hq hne
      exact (List.pairwise_cons.1 hs).1 q ((List.mem_cons.1 hq).resolve_left hne)
    simp only [List.head?_cons, Option.some.injEq, ne_eq]
    have m1 : [1 / 2, 0] ∈ x :: t := (hm _).2 (by simp)
    constructor
    · rintro rfl
      have := hx _ m1 (by norm_num)
      rw [(lexLe_iff _ _).1] at this
      norm_num at this
    · rintro rfl
      have := hx _ m1 (by norm_num)
      rw [(lexLe_iff _ _).1] at this
      norm_num at this

/-- C76: a link from (0, 0) to (4, 4) with events at (1, 1), (3, 3) exactly on it meets the hypotheses -/
example : ∃ (co : EId → Point), axesOf [1, 0] (co 0) ≠ axesOf [1, 0] (co 3) ∧
    (isOnLink (1 / 10 ^ 7) false (axesOf [1, 0] (co 0)) (axesOf [1, 0] (co 1)) (axesOf [1, 0] (co 3)) = true) ∧
    ∀ e, linkArea false (axesOf [1, 0] (co 0)) (axesOf [1, 0] (co e)) (axesOf [1, 0] (co 3)) = 0 := by
  refine ⟨fun e _ => if e = 0 then 0 else if e = 1 then 1 else if e = 2 then 3 else 4, ?_, ?_, ?_⟩
  · simp [axesOf]
  · simp [axesOf, isOnLink, isBetween, linkArea, test]
  · intro e
    simp only [axesOf, linkArea]
    norm_num

end Causets
