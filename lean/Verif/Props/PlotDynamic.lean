import Verif.Props.Fading

/-! # C75 — the visible part of a link in dynamic plots (causetplotting.py:473-533) -/

namespace Causets

/-- **Specification.** A point is visible in dynamic mode: it is on the side of the time slice that `depth` points to (or on the slice), and, for linear fading, less than `depth` away. -/
def Visible (name : String) (depth time : ℝ) (c : Point) : Prop :=
  0 ≤ depth * (c 0 - time) ∧ (name = "linear" → |c 0 - time| < |depth|)

/-- **Specification.** A point is strictly on the other side of the time slice. -/
def WrongSide (depth time : ℝ) (c : Point) : Prop := depth * (c 0 - time) < 0

/-- **C75, visibility.** The fading value of a point is positive exactly if the point is visible. -/
theorem C75_visible (name : String) (dim : ℕ) (depth m time : ℝ) (hd : depth ≠ 0) (hm : 0 < m) (f : ℝ → ℝ) (hf : dynamicParameter name dim depth m = some f)
    (c : Point) : 0 < f (c 0 - time) ↔ Visible name depth time c := by
  unfold Visible
  rcases lt_or_ge (depth * (c 0 - time)) 0 with hw | hw
  · rw [C58_wrong_side name dim depth m f hf _ hw]
    simp only [lt_self_iff_false, false_iff, not_and]
    intro h; linarith
  · simp only [hw, true_and]
    rcases (C58_names name dim depth m).1 ⟨f, hf⟩ with rfl | rfl | rfl
    · obtain ⟨f', hf', h1, h2, h3, h4⟩ := C58_linear dim depth m hd hm
      obtain rfl : f = f' := by rw [hf] at hf'; exact Option.some.inj hf'
      simp only [true_imp_iff]
      rw [h2 _ hw]
      have hp : 0 < |depth| := abs_pos.2 hd
      constructor
      · intro h
        by_contra hc
        push Not at hc
        have : 1 ≤ |c 0 - time| / |depth| := (one_le_div hp).2 hc
        nlinarith
      · intro h
        have : |c 0 - time| / |depth| < 1 := (div_lt_one hp).2 h
        have : 0 < 1 - |c 0 - time| / |depth| := by linarith
        positivity
    · obtain ⟨f', hf', h1, -⟩ := C58_exponential dim depth m hd hm
      obtain rfl : f = f' := by rw [hf] at hf'; exact Option.some.inj hf'
      simp [(h1 _ hw).1]
    · obtain ⟨f', hf', h1, -⟩ := C58_intensity dim depth m hd hm
      obtain rfl : f = f' := by rw [hf] at hf'; exact Option.some.inj hf'
      simp [(h1 _ hw).1]

/-- On the right side (or the slice) but beyond the time depth. -/
theorem not_visible_cases {name : String} {depth time : ℝ} {c : Point} (h : ¬ Visible name depth time c) (hd : depth ≠ 0) :
    WrongSide depth time c ∨ (0 < depth * (c 0 - time) ∧ ¬ Visible name depth time c) := by
  unfold WrongSide
  rcases lt_trichotomy (depth * (c 0 - time)) 0 with h1 | h1 | h1
  · exact Or.inl h1
  · exfalso
    apply h
    refine ⟨h1.ge, fun _ => ?_⟩
    have : c 0 - time = 0 := (mul_eq_zero.1 h1).resolve_left hd
    rw [this, abs_zero]; exact abs_pos.2 hd
  · exact Or.inr ⟨h1, h⟩

theorem sign_ne_of_sides {d x y : ℝ} (hx : 0 ≤ d * x) (hy : d * y < 0) : SignType.sign x ≠ SignType.sign y := by
  intro e
  rcases lt_trichotomy y 0 with h | h | h
  · rw [sign_neg h, sign_eq_neg_one_iff] at e
    nlinarith
  · subst h; simp at hy
  · rw [sign_pos h, sign_eq_one_iff] at e
    nlinarith

theorem sign_eq_of_sides {d x y : ℝ} (hx : 0 < d * x) (hy : 0 < d * y) : SignType.sign x = SignType.sign y := by
  rcases lt_trichotomy y 0 with h | h | h
  · have : x < 0 := by
      by_contra hc; push Not at hc
      have : d < 0 := by nlinarith
      nlinarith
    rw [sign_neg h, sign_neg this]
  · subst h; simp at hy
  · have : 0 < x := by
      by_contra hc; push Not at hc
      have : 0 < d := by nlinarith
      nlinarith
    rw [sign_pos h, sign_pos this]

section
variable (name : String) (dim : ℕ) (depth time me ml : ℝ) (hd : depth ≠ 0) (hme : 0 < me) (hml : 0 < ml) (fe fl : ℝ → ℝ)
  (hfe : dynamicParameter name dim depth me = some fe) (hfl : dynamicParameter name dim depth ml = some fl) (ci cj : Point)
include hd hme hml hfe hfl

/-- both visible -/
theorem dynamicLink_both (hi : Visible name depth time ci) (hj : Visible name depth time cj) :
    ∃ p q, ((p = ci ∧ q = cj) ∨ (p = cj ∧ q = ci)) ∧ |q 0 - time| ≤ |p 0 - time| ∧
      dynamicLink fe fl depth time ci cj = some (p, q, fe (p 0 - time), fl (p 0 - time), []) := by
  have vi := (C75_visible name dim depth me time hd hme fe hfe ci).2 hi
  have vj := (C75_visible name dim depth me time hd hme fe hfe cj).2 hj
  have wi := (C75_visible name dim depth ml time hd hml fl hfl ci).2 hi
  have wj := (C75_visible name dim depth ml time hd hml fl hfl cj).2 hj
  unfold dynamicLink
  simp only [test, gt_iff_lt, vi, vj, decide_true, Bool.and_self, if_true, sub_self, zero_mul, one_mul, zero_add]
  by_cases hc : |cj 0 - time| < |ci 0 - time|
  · refine ⟨ci, cj, Or.inl ⟨rfl, rfl⟩, hc.le, ?_⟩
    simp [hc, wi]
  · refine ⟨cj, ci, Or.inr ⟨rfl, rfl⟩, not_lt.1 hc, ?_⟩
    simp [hc, wj]

/-- first visible and off the slice, second on the other side -/
theorem dynamicLink_first (hi : Visible name depth time ci) (hi' : ci 0 ≠ time) (hj : WrongSide depth time cj) :
    ∃ tau, 0 < tau ∧ tau < 1 ∧ (1 - tau) * ci 0 + tau * cj 0 = time ∧
      dynamicLink fe fl depth time ci cj = some (ci, (fun k => (1 - tau) * ci k + tau * cj k), fe (ci 0 - time), fl (ci 0 - time), [1]) := by
  have vi := (C75_visible name dim depth me time hd hme fe hfe ci).2 hi
  have vj : ¬ 0 < fe (cj 0 - time) := fun h => by
    have := ((C75_visible name dim depth me time hd hme fe hfe cj).1 h).1
    unfold WrongSide at hj; linarith
  have wi := (C75_visible name dim depth ml time hd hml fl hfl ci).2 hi
  have hs := sign_ne_of_sides hi.1 hj
  have hpos : 0 < depth * (ci 0 - time) := lt_of_le_of_ne hi.1 (fun h => hi' (by
    rcases mul_eq_zero.1 h.symm with h | h
    · exact absurd h hd
    · linarith))
  unfold WrongSide at hj
  set x := ci 0 - time with hx
  set y := cj 0 - time with hy
  have hxy : x - y ≠ 0 := fun h => by have : x = y := by linarith
                                      rw [this] at hpos; linarith
  have ht : |x / (x - y)| = x / (x - y) := by
    refine abs_of_nonneg ?_
    have : x / (x - y) = (depth * x) / (depth * (x - y)) := by field_simp
    rw [this]
    apply div_nonneg hpos.le
    nlinarith
  refine ⟨x / (x - y), ?_, ?_, ?_, ?_⟩
  · have : x / (x - y) = (depth * x) / (depth * (x - y)) := by field_simp
    rw [this]; apply div_pos hpos; nlinarith
  · have : x / (x - y) = (depth * x) / (depth * (x - y)) := by field_simp
    rw [this, div_lt_one (by nlinarith)]; nlinarith
  · have e1 : ci 0 = x + time := by rw [hx]; ring
    have e2 : cj 0 = y + time := by rw [hy]; ring
    rw [e1, e2]; field_simp; ring
  · unfold dynamicLink
    simp only [test, gt_iff_lt, ← hx, ← hy, vi, vj, decide_true, decide_false, Bool.and_false, Bool.false_eq_true, if_false, Bool.or_false,
      ne_eq, hs, not_false_eq_true, Bool.and_self, if_true, hpos, wi, ht]

/-- second visible, first on the other side -/
theorem dynamicLink_second (hj : Visible name depth time cj) (hi : WrongSide depth time ci) :
    ∃ tau, 0 ≤ tau ∧ tau < 1 ∧ (1 - tau) * cj 0 + tau * ci 0 = time ∧
      dynamicLink fe fl depth time ci cj = some (cj, (fun k => (1 - tau) * cj k + tau * ci k), fe (cj 0 - time), fl (cj 0 - time), [1]) := by
  have vj := (C75_visible name dim depth me time hd hme fe hfe cj).2 hj
  have vi : ¬ 0 < fe (ci 0 - time) := fun h => by
    have := ((C75_visible name dim depth me time hd hme fe hfe ci).1 h).1
    unfold WrongSide at hi; linarith
  have wj := (C75_visible name dim depth ml time hd hml fl hfl cj).2 hj
  have hs := (sign_ne_of_sides hj.1 hi).symm
  have hpos := hj.1
  unfold WrongSide at hi
  have hnot : ¬ 0 < depth * (ci 0 - time) := by linarith
  set x := ci 0 - time with hx
  set y := cj 0 - time with hy
  have hxy : y - x ≠ 0 := fun h => by have : x = y := by linarith
                                      rw [this] at hi; linarith
  have ht : |y / (x - y)| = y / (y - x) := by
    rw [← abs_neg, ← div_neg, neg_sub]
    refine abs_of_nonneg ?_
    have : y / (y - x) = (depth * y) / (depth * (y - x)) := by field_simp
    rw [this]
    apply div_nonneg hpos
    nlinarith
  refine ⟨y / (y - x), ?_, ?_, ?_, ?_⟩
  · rw [← ht]; positivity
  · have : y / (y - x) = (depth * y) / (depth * (y - x)) := by field_simp
    rw [this, div_lt_one (by nlinarith)]; nlinarith
  · have e1 : ci 0 = x + time := by rw [hx]; ring
    have e2 : cj 0 = y + time := by rw [hy]; ring
    rw [e1, e2]; field_simp; ring
  · unfold dynamicLink
    simp only [test, gt_iff_lt, ← hx, ← hy, vi, vj, decide_true, decide_false, Bool.false_and, Bool.false_eq_true, if_false, Bool.false_or,
      ne_eq, hs, not_false_eq_true, Bool.and_self, if_true, hnot, wj, ht]

/-- all other cases: not drawn -/
theorem dynamicLink_none (h1 : ¬ (Visible name depth time ci ∧ Visible name depth time cj))
    (h2 : ¬ (Visible name depth time ci ∧ ci 0 ≠ time ∧ WrongSide depth time cj)) (h3 : ¬ (Visible name depth time cj ∧ WrongSide depth time ci)) :
    dynamicLink fe fl depth time ci cj = none := by
  have vi := C75_visible name dim depth me time hd hme fe hfe ci
  have vj := C75_visible name dim depth me time hd hme fe hfe cj
  have wi := C75_visible name dim depth ml time hd hml fl hfl ci
  have wj := C75_visible name dim depth ml time hd hml fl hfl cj
  unfold dynamicLink
  simp only [test, gt_iff_lt]
  by_cases hi : Visible name depth time ci
  · have hj : ¬ Visible name depth time cj := fun hj => h1 ⟨hi, hj⟩
    simp only [vi.2 hi, mt vj.1 hj, decide_true, decide_false, Bool.and_false, Bool.false_eq_true, if_false, Bool.or_false, Bool.true_and]
    by_cases hs : SignType.sign (ci 0 - time) = SignType.sign (cj 0 - time)
    · simp [hs]
    · simp only [ne_eq, hs, not_false_eq_true, decide_true, if_true]
      have hp : ¬ 0 < depth * (ci 0 - time) := by
        rcases not_visible_cases hj hd with hw | ⟨hw, -⟩
        · have hci : ci 0 = time := by
            by_contra hc; exact h2 ⟨hi, hc, hw⟩
          rw [hci]; simp
        · intro hp; exact hs (sign_eq_of_sides hp hw)
      simp only [hp, mt wj.1 hj, decide_false, Bool.false_eq_true, if_false]
  · simp only [mt vi.1 hi, decide_false, Bool.false_and, Bool.false_eq_true, if_false, Bool.false_or]
    by_cases hj : Visible name depth time cj
    · simp only [vj.2 hj, decide_true, Bool.true_and]
      by_cases hs : SignType.sign (ci 0 - time) = SignType.sign (cj 0 - time)
      · simp [hs]
      · simp only [ne_eq, hs, not_false_eq_true, decide_true, if_true]
        rcases not_visible_cases hi hd with hw | ⟨hw, -⟩
        · exact absurd ⟨hj, hw⟩ h3
        · simp only [hw, mt wi.1 hi, decide_true, decide_false, Bool.false_eq_true, if_true, if_false]
    · simp only [mt vj.1 hj, decide_false, Bool.false_and, Bool.false_eq_true, if_false]

/-- **C75, which links are drawn.** In dynamic mode (time depth not 0) a link is drawn exactly if both events are visible, or one of them is visible and the other one is strictly on the other side of the time slice
(a link from an event exactly on the slice to the other side is drawn, as a point, only if the event on the slice is the later one in the list). -/
theorem C75_drawn : (dynamicLink fe fl depth time ci cj).isSome ↔
    (Visible name depth time ci ∧ Visible name depth time cj) ∨ (Visible name depth time ci ∧ ci 0 ≠ time ∧ WrongSide depth time cj) ∨
    (Visible name depth time cj ∧ WrongSide depth time ci) := by
  constructor
  · intro h
    by_contra hc
    push Not at hc
    rw [dynamicLink_none name dim depth time me ml hd hme hml fe fl hfe hfl ci cj (fun h => hc.1 h.1 h.2)
      (fun h => hc.2.1 h.1 h.2.1 h.2.2) (fun h => hc.2.2 h.1 h.2)] at h
    simp at h
  · rintro (⟨h1, h2⟩ | ⟨h1, h2, h3⟩ | ⟨h1, h2⟩)
    · obtain ⟨p, q, -, -, e⟩ := dynamicLink_both name dim depth time me ml hd hme hml fe fl hfe hfl ci cj h1 h2
      rw [e]; rfl
    · obtain ⟨t, -, -, -, e⟩ := dynamicLink_first name dim depth time me ml hd hme hml fe fl hfe hfl ci cj h1 h2 h3
      rw [e]; rfl
    · obtain ⟨t, -, -, -, e⟩ := dynamicLink_second name dim depth time me ml hd hme hml fe fl hfe hfl ci cj h1 h2
      rw [e]; rfl

/-- **C75, what is drawn.** The drawn line starts at a visible event `p` of the link, with the fading values of this event.  If both events are visible it is the whole link, `p` is an event
farthest from the slice, and there is no marker.  Otherwise the other event `o` is on the wrong side, the line ends in a point of the link exactly on the time slice, with a marker at its end; the line is exactly the part of the link on the
right side of the time slice. -/
theorem C75_geometry (p q : Point) (alpha width : ℝ) (m : List ℕ) (h : dynamicLink fe fl depth time ci cj = some (p, q, alpha, width, m)) :
    Visible name depth time p ∧ alpha = fe (p 0 - time) ∧ width = fl (p 0 - time) ∧
    ∃ o, ((p = ci ∧ o = cj) ∨ (p = cj ∧ o = ci)) ∧
      ((Visible name depth time o ∧ q = o ∧ |o 0 - time| ≤ |p 0 - time| ∧ m = []) ∨
       (WrongSide depth time o ∧ q 0 = time ∧ m = [1] ∧ ∃ tau, 0 ≤ tau ∧ tau < 1 ∧ (∀ k, q k = (1 - tau) * p k + tau * o k) ∧
          ∀ s, 0 ≤ s → s ≤ 1 → (0 ≤ depth * (((1 - s) * p 0 + s * o 0) - time) ↔ s ≤ tau))) := by
  have part : ∀ (a b : Point) (tau : ℝ), WrongSide depth time b → Visible name depth time a → (1 - tau) * a 0 + tau * b 0 = time →
      ∀ s, 0 ≤ s → s ≤ 1 → (0 ≤ depth * (((1 - s) * a 0 + s * b 0) - time) ↔ s ≤ tau) := by
    intro a b tau hb ha ht s _ _
    have e : depth * (((1 - s) * a 0 + s * b 0) - time) = (tau - s) * (depth * (a 0 - time) - depth * (b 0 - time)) := by
      rw [← ht]; ring
    have hp : 0 < depth * (a 0 - time) - depth * (b 0 - time) := by
      unfold WrongSide at hb; have := ha.1; linarith
    rw [e]
    constructor
    · intro h0; by_contra hc; push Not at hc; nlinarith
    · intro h0; apply mul_nonneg <;> linarith
  have hs : (dynamicLink fe fl depth time ci cj).isSome := by rw [h]; rfl
  rcases (C75_drawn name dim depth time me ml hd hme hml fe fl hfe hfl ci cj).1 hs with ⟨h1, h2⟩ | ⟨h1, h2, h3⟩ | ⟨h1, h2⟩
  · obtain ⟨p', q', hpq, hle, e⟩ := dynamicLink_both name dim depth time me ml hd hme hml fe fl hfe hfl ci cj h1 h2
    rw [h] at e
    simp only [Option.some.injEq, Prod.mk.injEq] at e
    obtain ⟨rfl, rfl, rfl, rfl, rfl⟩ := e
    refine ⟨?_, rfl, rfl, q, hpq, Or.inl ⟨?_, rfl, hle, rfl⟩⟩
    · rcases hpq with ⟨rfl, rfl⟩ | ⟨rfl, rfl⟩ <;> assumption
    · rcases hpq with ⟨rfl, rfl⟩ | ⟨rfl, rfl⟩ <;> assumption
  · obtain ⟨t, t0, t1, ht, e⟩ := dynamicLink_first name dim depth time me ml hd hme hml fe fl hfe hfl ci cj h1 h2 h3
    rw [h] at e
    simp only [Option.some.injEq, Prod.mk.injEq] at e
    obtain ⟨rfl, rfl, rfl, rfl, rfl⟩ := e
    exact ⟨h1, rfl, rfl, cj, Or.inl ⟨rfl, rfl⟩, Or.inr ⟨h3, ht, rfl, t, t0.le, t1, fun k => rfl, part _ _ _ h3 h1 ht⟩⟩
  · obtain ⟨t, t0, t1, ht, e⟩ := dynamicLink_second name dim depth time me ml hd hme hml fe fl hfe hfl ci cj h1 h2
    rw [h] at e
    simp only [Option.some.injEq, Prod.mk.injEq] at e
    obtain ⟨rfl, rfl, rfl, rfl, rfl⟩ := e
    exact ⟨h1, rfl, rfl, ci, Or.inr ⟨rfl, rfl⟩, Or.inr ⟨h2, ht, rfl, t, t0, t1, fun k => rfl, part _ _ _ h2 h1 ht⟩⟩


/-- **C75, the artist.** The line that is passed to matplotlib for the link of `a` and `b` has exactly two points, given along the axes of the plot: the first is the position of the
visible event `e` farther from the slice, with the opacity and the width of this event; the second is the position of the other event `e'`, without marker, or the point of the link
on the time slice, with a marker on this second point. -/
theorem C75_artist (dims : List ℤ) (co : EId → Point) (a b : EId) (art : LinkArt) (h : dynamicArt fe fl depth time dims co a b = some art) :
    ∃ (e e' : EId) (q : Point), ((e = a ∧ e' = b) ∨ (e = b ∧ e' = a)) ∧
      art.pts = [dims.map (fun d => co e d.toNat), dims.map (fun d => q d.toNat)] ∧
      Visible name depth time (co e) ∧ art.alpha = some (fe (co e 0 - time)) ∧ art.width = some (fl (co e 0 - time)) ∧
      ((Visible name depth time (co e') ∧ q = co e' ∧ |co e' 0 - time| ≤ |co e 0 - time| ∧ art.markevery = []) ∨
       (WrongSide depth time (co e') ∧ q 0 = time ∧ art.markevery = [1] ∧ ∃ tau, 0 ≤ tau ∧ tau < 1 ∧ ∀ k, q k = (1 - tau) * co e k + tau * co e' k)) := by
  cases hl : dynamicLink fe fl depth time (co a) (co b) with
  | none => rw [dynamicArt, hl] at h; cases h
  | some r =>
    obtain ⟨p, q, alpha, width, m⟩ := r
    obtain ⟨h1, h2, h3, o, ho, hcase⟩ := C75_geometry name dim depth time me ml hd hme hml fe fl hfe hfl (co a) (co b) p q alpha width m hl
    rw [dynamicArt, hl] at h
    simp only [Option.map_some, Option.some.injEq] at h
    subst h
    have hq : ∀ e e', p = co e → o = co e' →
        (art : LinkArt) → art = ⟨[axesOf dims p, axesOf dims q], some alpha, some width, m⟩ →
        art.pts = [dims.map (fun d => co e d.toNat), dims.map (fun d => q d.toNat)] ∧
        Visible name depth time (co e) ∧ art.alpha = some (fe (co e 0 - time)) ∧ art.width = some (fl (co e 0 - time)) ∧
        ((Visible name depth time (co e') ∧ q = co e' ∧ |co e' 0 - time| ≤ |co e 0 - time| ∧ art.markevery = []) ∨
         (WrongSide depth time (co e') ∧ q 0 = time ∧ art.markevery = [1] ∧ ∃ tau, 0 ≤ tau ∧ tau < 1 ∧ ∀ k, q k = (1 - tau) * co e k + tau * co e' k)) := by
      rintro e e' rfl rfl art rfl
      refine ⟨rfl, h1, by rw [h2], by rw [h3], ?_⟩
      rcases hcase with ⟨c1, c2, c3, c4⟩ | ⟨c1, c2, c3, tau, c4, c5, c6, -⟩
      · exact Or.inl ⟨c1, c2, c3, c4⟩
      · exact Or.inr ⟨c1, c2, c3, tau, c4, c5, c6⟩
    rcases ho with ⟨rfl, rfl⟩ | ⟨rfl, rfl⟩
    · exact ⟨a, b, q, Or.inl ⟨rfl, rfl⟩, hq a b rfl rfl _ rfl⟩
    · exact ⟨b, a, q, Or.inr ⟨rfl, rfl⟩, hq b a rfl rfl _ rfl⟩

end

/-- C75: linear fading with depth 2 at time 0; the event at time 1 is visible, that at time -1 is on the wrong side: half of the link is drawn. -/
example : ∃ fe : ℝ → ℝ, dynamicParameter "linear" 2 2 1 = some fe ∧ Visible "linear" 2 0 (fun _ => 1) ∧ WrongSide 2 0 (fun _ => -1) ∧
    dynamicLink fe fe 2 0 (fun _ => 1) (fun _ => -1) = some ((fun _ => 1), (fun _ => 0), 1 / 2, 1 / 2, [1]) := by
  obtain ⟨f, hf, h1, h2, -⟩ := C58_linear 2 2 1 (by norm_num) (by norm_num)
  have hv : Visible "linear" 2 0 (fun _ => 1) := ⟨by norm_num, fun _ => by norm_num⟩
  have hw : WrongSide 2 0 (fun _ => -1) := by unfold WrongSide; norm_num
  refine ⟨f, hf, hv, hw, ?_⟩
  obtain ⟨t, -, -, ht, e⟩ := dynamicLink_first "linear" 2 2 0 1 1 (by norm_num) (by norm_num) (by norm_num) f f hf hf _ _ hv (by norm_num) hw
  rw [e]
  have : t = 1 / 2 := by linarith
  subst this
  have e2 : f (1 - 0) = 1 / 2 := by rw [h2 _ (by norm_num)]; norm_num
  rw [e2]
  norm_num

end Causets
