import Verif.Lemmas.MergeExact
import Verif.Props.DisjoinLinks
import Verif.Props.MergeLink

/-!
# C18: exactly what the link queries answer after `merge`
-/

namespace Causets

open Heap

variable {h : Heap}

theorem idxOf_split {α : Type} [BEq α] [LawfulBEq α] {L A B : List α} {x y : α} (hL : L = A ++ y :: B)
    (hn : L.Nodup) : L.idxOf x < L.idxOf y ↔ x ∈ A := by
  subst hL
  have hyA : y ∉ A := fun hh => (List.nodup_append.1 hn).2.2 y hh y (by simp) rfl
  rw [List.idxOf_append_of_notMem hyA, List.idxOf_cons_self]
  constructor
  · intro h1
    by_contra hx
    rw [List.idxOf_append_of_notMem hx] at h1
    omega
  · intro hx
    rw [List.idxOf_append_of_mem hx]
    have := List.idxOf_lt_length_of_mem hx
    omega

/-- **Specification.** `merge` goes through the events of the past set in some order and joins each of them with the
events of the future set in some order (which may be another one each time).  When the pair `p`, `f` is
joined, no event above `p` has been joined with `f` before, and no event below `f` with `p`. -/
def FirstJoined (lt : EId → EId → Prop) (outer : List EId) (inner : EId → List EId) (p f : EId) : Prop :=
  (∀ p', lt p p' → ¬ outer.idxOf p' < outer.idxOf p) ∧
  (∀ f', lt f' f → ¬ (inner p).idxOf f' < (inner p).idxOf f)

/-- the order of the outer loop of `merge` -/
def mergeOuter (it : Iter) (P : Finset EId) : List EId := it.ord [237] P
/-- the order of the inner loop of `merge` for `p` -/
def mergeInnerOrder (it : Iter) (F : Finset EId) (p : EId) : List EId := it.ord [p, 238] F

theorem looksLinked_iff (it : Iter) (P F : Finset EId) (lt : EId → EId → Prop) (p f : EId) (hp : p ∈ P) (hf : f ∈ F) :
    LooksLinked lt (joinList it F (it.ord [237] P)) p f ↔
      FirstJoined lt (mergeOuter it P) (mergeInnerOrder it F) p f := by
  have hpL : p ∈ it.ord [237] P := (it.mem _ _ _).2 hp
  have hfL : f ∈ it.ord [p, 238] F := (it.mem _ _ _).2 hf
  have hnL := it.nodup [237] P
  have hnM := it.nodup [p, 238] F
  obtain ⟨L1, L2, hL⟩ := List.append_of_mem hpL
  obtain ⟨M1, M2, hM⟩ := List.append_of_mem hfL
  have hW : joinList it F (it.ord [237] P) =
      (joinList it F L1 ++ M1.map (fun f => (p, f))) ++ (p, f) :: (M2.map (fun f => (p, f)) ++ joinList it F L2) := by
    rw [hL]
    simp only [joinList, List.flatMap_append, List.flatMap_cons]
    rw [hM]
    simp
  have hnW := nodup_joinList it F _ hnL
  have hpL1 : p ∉ L1 := by
    rw [hL] at hnL
    exact fun hh => (List.nodup_append.1 hnL).2.2 p hh p (by simp) rfl
  have hfM1 : f ∉ M1 := by
    rw [hM] at hnM
    exact fun hh => (List.nodup_append.1 hnM).2.2 f hh f (by simp) rfl
  unfold LooksLinked FirstJoined mergeOuter mergeInnerOrder
  refine and_congr (forall_congr' fun p' => imp_congr_right fun _ => not_congr ?_)
    (forall_congr' fun f' => imp_congr_right fun _ => not_congr ?_)
  · rw [idxOf_split hW hnW, idxOf_split hL hnL, List.mem_append, mem_joinList, List.mem_map]
    simp only [Prod.mk.injEq, exists_eq_right_right, hf, and_true]
    constructor
    · rintro (h1 | h1)
      · exact h1
      · exact absurd h1.1 hfM1
    · exact Or.inl
  · rw [idxOf_split hW hnW, idxOf_split hM hnM, List.mem_append, mem_joinList, List.mem_map]
    simp only [Prod.mk.injEq, true_and, exists_eq_right, hpL1, false_and, false_or]

/-- the links of the merged order -/
theorem merge_covers (it : Iter) (v : h.Valid) (P F : Finset EId) (hP : Closed h.Lt P) (hF : Closed h.Lt F) (hd : Disjoint P F)
    (a b : EId) :
    Covers (merge it P F false h).2.Lt a b ↔
      Covers h.Lt a b ∨ (a ∈ P ∧ b ∈ F ∧ (∀ x, ¬ h.Lt a x) ∧ (∀ x, ¬ h.Lt x b)) := by
  obtain ⟨-, -, hp, -⟩ := merge_fields it P F h
  have hlt : ∀ a b, (merge it P F false h).2.Lt a b ↔ h.Lt a b ∨ (a ∈ P ∧ b ∈ F) := by
    intro a b; rw [lt_iff, lt_iff]; exact hp a b
  have dis : ∀ x, x ∈ P → x ∈ F → False := fun x h1 h2 => Finset.disjoint_left.1 hd h1 h2
  simp only [Covers, hlt]
  constructor
  · rintro ⟨h1 | h1, h2⟩
    · exact Or.inl ⟨h1, fun c hc => h2 c ⟨Or.inl hc.1, Or.inl hc.2⟩⟩
    · refine Or.inr ⟨h1.1, h1.2, fun x hx => ?_, fun x hx => ?_⟩
      · exact h2 x ⟨Or.inl hx, Or.inr ⟨hP a h1.1 x (Or.inl hx), h1.2⟩⟩
      · exact h2 x ⟨Or.inr ⟨h1.1, hF b h1.2 x (Or.inr hx)⟩, Or.inl hx⟩
  · rintro (⟨h1, h2⟩ | ⟨h1, h2, h3, h4⟩)
    · refine ⟨Or.inl h1, ?_⟩
      rintro c ⟨c1 | c1, c2 | c2⟩
      · exact h2 c ⟨c1, c2⟩
      · exact dis b (hP a (hP c c2.1 a (Or.inr c1)) b (Or.inl h1)) c2.2
      · exact dis b (hP a c1.1 b (Or.inl h1)) (hF c c1.2 b (Or.inl c2))
      · exact dis c c2.1 c1.2
    · refine ⟨Or.inr ⟨h1, h2⟩, ?_⟩
      rintro c ⟨c1 | c1, c2 | c2⟩
      · exact h3 c c1
      · exact h3 c c1
      · exact h4 c c2
      · exact dis c c2.1 c1.2

theorem exists_minimal_event (v : h.Valid) (q : EId → Prop) (S : Finset EId) (x : EId) (hx : x ∈ S) (hq : q x) :
    ∃ m ∈ S, q m ∧ ∀ y ∈ S, q y → ¬ h.Lt y m := by
  classical
  obtain ⟨m, hm, hmin⟩ := Finset.exists_min_image (S.filter q) (fun y => (h.prec y).card)
    ⟨x, by simp [hx, hq]⟩
  rw [Finset.mem_filter] at hm
  refine ⟨m, hm.1, hm.2, fun y hy hqy hlt => ?_⟩
  have h1 := hmin y (by simp [hy, hqy])
  have h2 : h.prec y ⊂ h.prec m := by
    rw [Finset.ssubset_iff_of_subset]
    · exact ⟨y, by rwa [v.mem_prec], by rw [v.mem_prec]; exact v.irrefl y⟩
    · intro z; rw [v.mem_prec, v.mem_prec]; exact fun hz => v.trans hz hlt
  exact absurd h1 (not_le.2 (Finset.card_lt_card h2))

theorem exists_maximal_event (v : h.Valid) (q : EId → Prop) (S : Finset EId) (x : EId) (hx : x ∈ S) (hq : q x) :
    ∃ m ∈ S, q m ∧ ∀ y ∈ S, q y → ¬ h.Lt m y := by
  classical
  obtain ⟨m, hm, hmin⟩ := Finset.exists_min_image (S.filter q) (fun y => (h.succ y).card)
    ⟨x, by simp [hx, hq]⟩
  rw [Finset.mem_filter] at hm
  refine ⟨m, hm.1, hm.2, fun y hy hqy hlt => ?_⟩
  have h1 := hmin y (by simp [hy, hqy])
  have h2 : h.succ y ⊂ h.succ m := by
    rw [Finset.ssubset_iff_of_subset]
    · exact ⟨y, by rwa [v.mem_succ], by rw [v.mem_succ]; exact v.irrefl y⟩
    · intro z; rw [v.mem_succ, v.mem_succ]; exact fun hz => v.trans hlt hz
  exact absurd h1 (not_le.2 (Finset.card_lt_card h2))

/-- the memory after `merge` -/
theorem merge_memory (it : Iter) (v : h.Valid) (lx : h.LinksExact) (P F : Finset EId)
    (hP : Closed h.Lt P) (hF : Closed h.Lt F) (hd : Disjoint P F) (y : EId) :
    let J := FirstJoined h.Lt (mergeOuter it P) (mergeInnerOrder it F)
    (h.hasBeenLinked y = false →
      (merge it P F false h).2.lprec y = none ∧ (merge it P F false h).2.lsucc y = none) ∧
    (h.hasBeenLinked y = true →
      (∃ s, (merge it P F false h).2.lprec y = some s ∧ ∀ x, x ∈ s ↔ Covers h.Lt x y ∨
        (x ∈ P ∧ y ∈ F ∧ J x y ∧ ∀ p ∈ P, h.Lt x p → ¬ J p y)) ∧
      (∃ t, (merge it P F false h).2.lsucc y = some t ∧ ∀ x, x ∈ t ↔ Covers h.Lt y x ∨
        (y ∈ P ∧ x ∈ F ∧ J y x ∧ ∀ f ∈ F, h.Lt f x → ¬ J y f))) := by
  intro J
  have I : JoinInv h (joinList it F (it.ord [237] P)) (merge it P F false h).2 := by
    have := joinInv h v lx P F hP hF hd (joinList it F (it.ord [237] P)) (nodup_joinList it F _ (it.nodup _ _))
      (fun w hw => by
        obtain ⟨a, b⟩ := w
        rw [mem_joinList, it.mem] at hw
        exact hw)
    rw [← mergeLoop_eq_foldl] at this
    simpa [merge] using this
  have mW : ∀ a b, (a, b) ∈ joinList it F (it.ord [237] P) ↔ a ∈ P ∧ b ∈ F := fun a b => by
    rw [mem_joinList, it.mem]
  have LJ : ∀ a b, a ∈ P → b ∈ F → (LooksLinked h.Lt (joinList it F (it.ord [237] P)) a b ↔ J a b) :=
    fun a b ha hb => looksLinked_iff it P F h.Lt a b ha hb
  constructor
  · intro hl
    have hn : h.lprec y = none ∧ h.lsucc y = none := by
      have hb := lx.both y
      simp only [hasBeenLinked, Bool.and_eq_false_iff, Option.isSome_eq_false_iff,
        Option.isNone_iff_eq_none] at hl
      tauto
    exact ⟨I.pnone y hn.1, I.snone y hn.2⟩
  · intro hl
    simp only [hasBeenLinked, Bool.and_eq_true, Option.isSome_iff_exists] at hl
    obtain ⟨⟨s, hs⟩, t, ht⟩ := hl
    obtain ⟨s', hs', hx⟩ := I.psome y s hs (by simp [ht])
    obtain ⟨t', ht', hz⟩ := I.ssome y t ht (by simp [hs])
    refine ⟨⟨s', hs', fun x => ?_⟩, t', ht', fun x => ?_⟩
    · rw [hx, lx.past y s hs]
      refine or_congr_right ?_
      simp only [mW]
      constructor
      · rintro ⟨⟨h1, h2⟩, h3, h4⟩
        exact ⟨h1, h2, (LJ _ _ h1 h2).1 h3, fun p hp hxp hJ => h4 p hxp ⟨hp, h2⟩ ((LJ _ _ hp h2).2 hJ)⟩
      · rintro ⟨h1, h2, h3, h4⟩
        exact ⟨⟨h1, h2⟩, (LJ _ _ h1 h2).2 h3, fun p hxp hp hJ => h4 p hp.1 hxp ((LJ _ _ hp.1 h2).1 hJ)⟩
    · rw [hz, lx.future y t ht]
      refine or_congr_right ?_
      simp only [mW]
      constructor
      · rintro ⟨⟨h1, h2⟩, h3, h4⟩
        exact ⟨h1, h2, (LJ _ _ h1 h2).1 h3, fun f hf hfx hJ => h4 f hfx ⟨h1, hf⟩ ((LJ _ _ h1 hf).2 hJ)⟩
      · rintro ⟨h1, h2, h3, h4⟩
        exact ⟨⟨h1, h2⟩, (LJ _ _ h1 h2).2 h3, fun f hfx hf hJ => h4 f hf.2 hfx ((LJ _ _ h1 hf.2).1 hJ)⟩

/-- **C18, what the link queries answer after `merge`**, for every iteration order: an event without link memory
answers with the links of the merged order; an event with link memory answers with its old links and with the
extremal ones among the events that were joined with it first (`FirstJoined`). -/
theorem C18_queries (it : Iter) (v : h.Valid) (lx : h.LinksExact) (P F : Finset EId)
    (eP : ∀ p ∈ P, h.Exists p) (eF : ∀ f ∈ F, h.Exists f)
    (hP : Closed h.Lt P) (hF : Closed h.Lt F) (hd : Disjoint P F) (y x : EId) :
    let J := FirstJoined h.Lt (mergeOuter it P) (mergeInnerOrder it F)
    (h.hasBeenLinked y = true →
      (x ∈ ((linkPast y).run (merge it P F false h).2).1 ↔
        Covers h.Lt x y ∨ (x ∈ P ∧ y ∈ F ∧ J x y ∧ ∀ p ∈ P, h.Lt x p → ¬ J p y)) ∧
      (x ∈ ((linkFuture y).run (merge it P F false h).2).1 ↔
        Covers h.Lt y x ∨ (y ∈ P ∧ x ∈ F ∧ J y x ∧ ∀ f ∈ F, h.Lt f x → ¬ J y f))) ∧
    (h.hasBeenLinked y = false →
      (x ∈ ((linkPast y).run (merge it P F false h).2).1 ↔ Covers (merge it P F false h).2.Lt x y) ∧
      (x ∈ ((linkFuture y).run (merge it P F false h).2).1 ↔ Covers (merge it P F false h).2.Lt y x)) := by
  intro J
  obtain ⟨m1, m2⟩ := merge_memory it v lx P F hP hF hd y
  have v' := merge_valid it P F h v eP eF (fun p hp x hx => hP p hp x (Or.inr hx))
    (fun f hf x hx => hF f hf x (Or.inl hx)) hd
  constructor
  · intro hl
    obtain ⟨⟨s, hs, h1⟩, t, ht, h2⟩ := m2 hl
    simp only [StateT.run, linkPast, linkFuture, hs, ht]
    exact ⟨h1 x, h2 x⟩
  · intro hl
    obtain ⟨h1, h2⟩ := m1 hl
    simp only [StateT.run, linkPast, linkFuture, h1, h2]
    exact ⟨mem_pastLinks v' _ _, mem_futureLinks v' _ _⟩

/-- **C18, exactly when the link queries stay right:** after `merge` the link memory is exact iff of every pair that is
joined first, the past event is maximal or has no link memory, and the future event is minimal or has no link
memory. -/
theorem C18_exact_iff (it : Iter) (v : h.Valid) (lx : h.LinksExact) (P F : Finset EId)
    (hP : Closed h.Lt P) (hF : Closed h.Lt F) (hd : Disjoint P F) :
    (merge it P F false h).2.LinksExact ↔
      ∀ p ∈ P, ∀ f ∈ F, FirstJoined h.Lt (mergeOuter it P) (mergeInnerOrder it F) p f →
        (h.hasBeenLinked p = true → ∀ x, ¬ h.Lt p x) ∧ (h.hasBeenLinked f = true → ∀ x, ¬ h.Lt x f) := by
  have hm := merge_memory it v lx P F hP hF hd
  have hc := merge_covers it v P F hP hF hd
  set J := FirstJoined h.Lt (mergeOuter it P) (mergeInnerOrder it F) with hJ
  have nlt : ∀ p ∈ P, ∀ f ∈ F, ¬ h.Lt p f := fun p hp f hf hh =>
    Finset.disjoint_left.1 hd (hP p hp f (Or.inl hh)) hf
  constructor
  · intro lx' p hp f hf hj
    constructor
    · intro hl x hx
      obtain ⟨-, t, ht, ht2⟩ := (hm p).2 hl
      obtain ⟨m, mF, mJ, mmin⟩ := exists_minimal_event v (fun f => J p f) F f hf hj
      have : m ∈ t := (ht2 m).2 (Or.inr ⟨hp, mF, mJ, fun f' hf' hlt hj' => mmin f' hf' hj' hlt⟩)
      rcases (hc p m).1 ((lx'.future p t ht m).1 this) with h1 | h1
      · exact nlt p hp m mF h1.1
      · exact h1.2.2.1 x hx
    · intro hl x hx
      obtain ⟨⟨s, hs, hs2⟩, -⟩ := (hm f).2 hl
      obtain ⟨m, mP, mJ, mmax⟩ := exists_maximal_event v (fun p => J p f) P p hp hj
      have : m ∈ s := (hs2 m).2 (Or.inr ⟨mP, hf, mJ, fun p' hp' hlt hj' => mmax p' hp' hj' hlt⟩)
      rcases (hc m f).1 ((lx'.past f s hs m).1 this) with h1 | h1
      · exact nlt m mP f hf h1.1
      · exact h1.2.2.2 x hx
  · intro hh
    have trivJ : ∀ p f, (∀ x, ¬ h.Lt p x) → (∀ x, ¬ h.Lt x f) → J p f := fun p f h1 h2 =>
      ⟨fun p' hp' => absurd hp' (h1 p'), fun f' hf' => absurd hf' (h2 f')⟩
    refine ⟨fun y s hs x => ?_, fun y s hs x => ?_, fun y => ?_⟩
    · cases hl : h.hasBeenLinked y with
      | false => rw [((hm y).1 hl).1] at hs; cases hs
      | true =>
        obtain ⟨⟨s', hs', hx⟩, -⟩ := (hm y).2 hl
        rw [hs] at hs'; cases hs'
        rw [hx, hc]
        refine or_congr_right ?_
        constructor
        · rintro ⟨h1, h2, h3, h4⟩
          have hmin := (hh x h1 y h2 h3).2 hl
          refine ⟨h1, h2, fun z hz => ?_, hmin⟩
          obtain ⟨m, mP, mz, mmax⟩ := exists_maximal_event v (fun p => h.Lt x p) P z (hP x h1 z (Or.inl hz)) hz
          refine h4 m mP mz (trivJ m y (fun w hw => ?_) hmin)
          exact mmax w (hP m mP w (Or.inl hw)) (v.trans mz hw) hw
        · rintro ⟨h1, h2, h3, h4⟩
          exact ⟨h1, h2, trivJ x y h3 h4, fun p _ hxp => absurd hxp (h3 p)⟩
    · cases hl : h.hasBeenLinked y with
      | false => rw [((hm y).1 hl).2] at hs; cases hs
      | true =>
        obtain ⟨-, s', hs', hx⟩ := (hm y).2 hl
        rw [hs] at hs'; cases hs'
        rw [hx, hc]
        refine or_congr_right ?_
        constructor
        · rintro ⟨h1, h2, h3, h4⟩
          have hmax := (hh y h1 x h2 h3).1 hl
          refine ⟨h1, h2, hmax, fun z hz => ?_⟩
          obtain ⟨m, mF, mz, mmin⟩ := exists_minimal_event v (fun f => h.Lt f x) F z (hF x h2 z (Or.inr hz)) hz
          refine h4 m mF mz (trivJ y m hmax (fun w hw => ?_))
          exact mmin w (hF m mF w (Or.inr hw)) (v.trans hw mz) hw
        · rintro ⟨h1, h2, h3, h4⟩
          exact ⟨h1, h2, trivJ y x h3 h4, fun f _ hfx => absurd hfx (h4 f)⟩
    · cases hl : h.hasBeenLinked y with
      | false => simp [((hm y).1 hl).1, ((hm y).1 hl).2]
      | true =>
        obtain ⟨⟨s', hs', -⟩, t', ht', -⟩ := (hm y).2 hl
        simp [hs', ht']

/-- **C18, independently of the iteration order** (both sets not empty): the link queries stay right whatever order
Python iterates in iff only maximal events of the past set and minimal events of the future set have link memory. -/
theorem C18_always_iff (v : h.Valid) (lx : h.LinksExact) (P F : Finset EId)
    (hP : Closed h.Lt P) (hF : Closed h.Lt F) (hd : Disjoint P F) (nP : P.Nonempty) (nF : F.Nonempty) :
    (∀ it, (merge it P F false h).2.LinksExact) ↔
      (∀ p ∈ P, h.hasBeenLinked p = true → ∀ x, ¬ h.Lt p x) ∧
      (∀ f ∈ F, h.hasBeenLinked f = true → ∀ x, ¬ h.Lt x f) := by
  have start : ∀ (a : EId) (s : Finset EId) (c : List ℕ), a ∈ s → ∀ x, ¬
      ((Iter.startingWith a).ord c s).idxOf x < ((Iter.startingWith a).ord c s).idxOf a := by
    intro a s c ha x
    simp [Iter.startingWith, ha]
  constructor
  · intro hh
    constructor
    · intro p hp hl
      obtain ⟨f0, hf0⟩ := nF
      obtain ⟨m, mF, -, mmin⟩ := exists_minimal_event v (fun _ => True) F f0 hf0 trivial
      refine ((C18_exact_iff (Iter.startingWith p) v lx P F hP hF hd).1 (hh _) p hp m mF ⟨?_, ?_⟩).1 hl
      · exact fun p' _ => start p P _ hp p'
      · exact fun f' hf' => absurd hf' (mmin f' (hF m mF f' (Or.inr hf')) trivial)
    · intro f hf hl
      obtain ⟨p0, hp0⟩ := nP
      obtain ⟨m, mP, -, mmax⟩ := exists_maximal_event v (fun _ => True) P p0 hp0 trivial
      refine ((C18_exact_iff (Iter.startingWith f) v lx P F hP hF hd).1 (hh _) m mP f hf ⟨?_, ?_⟩).2 hl
      · exact fun p' hp' => absurd hp' (mmax p' (hP m mP p' (Or.inl hp')) trivial)
      · exact fun f' _ => start f F _ hf f'
  · rintro ⟨h1, h2⟩ it
    rw [C18_exact_iff it v lx P F hP hF hd]
    exact fun p hp f hf _ => ⟨h1 p hp, h2 f hf⟩

/-- In the chain 0 < 1 with link memory only at the maximal event 1, and the single event 2 with link memory, the
criterion holds: merging them keeps all link queries right. -/
example : ∃ h, h.Valid ∧ h.LinksExact ∧ Closed h.Lt {0, 1} ∧ Closed h.Lt {2} ∧
    h.hasBeenLinked 1 = true ∧ h.hasBeenLinked 2 = true ∧ h.Lt 0 1 ∧
    ∀ it, (merge it {0, 1} {2} false h).2.LinksExact := by
  have hr : LinkReachable ((exChain2And1.link 1).link 2) := .link _ _ (.link _ _ exChain2And1_reach)
  have hlt : ∀ a b, ((exChain2And1.link 1).link 2).Lt a b ↔ a = 0 ∧ b = 1 := exChain2And1_lt
  refine ⟨_, hr.valid, hr.linksExact, exChain2And1_closed.1, exChain2And1_closed.2, by decide, by decide, by decide, ?_⟩
  rw [C18_always_iff hr.valid hr.linksExact _ _ exChain2And1_closed.1 exChain2And1_closed.2 (by decide) (by simp) (by simp)]
  constructor
  · intro p hp hl x
    rw [hlt]
    have : ((exChain2And1.link 1).link 2).hasBeenLinked 0 = false := by decide
    rintro ⟨rfl, -⟩
    rw [this] at hl; cases hl
  · intro f hf _ x
    rw [hlt]
    simp only [Finset.mem_singleton] at hf
    omega

end Causets
