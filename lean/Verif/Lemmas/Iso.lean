import Verif.Props.Schedule

/-! # Isomorphisms of causets: transport of sets and numbers (used for C109) -/

namespace Causets

/-- `f` is an isomorphism from the events of `U`, a causally closed set of events ordered by `lt`, to the causally closed set of events `f(U)` ordered by `lt'`. -/
structure CausalIso (lt lt' : ℕ → ℕ → Prop) (U : Finset ℕ) (f : ℕ → ℕ) : Prop where
  inj : ∀ a ∈ U, ∀ b ∈ U, f a = f b → a = b
  closed : Closed lt U
  closed' : Closed lt' (U.image f)
  iff : ∀ a ∈ U, ∀ b ∈ U, lt a b ↔ lt' (f a) (f b)

open Heap

variable {h h' : Heap} {U : Finset EId} {f : EId → EId}

namespace CausalIso

/-- the inverse of an isomorphism -/
noncomputable def inv (U : Finset ℕ) (f : ℕ → ℕ) : ℕ → ℕ := Function.invFunOn f (U : Set ℕ)

theorem inv_mem {lt lt' : ℕ → ℕ → Prop} (_ : CausalIso lt lt' U f) {x : ℕ} (hx : x ∈ U.image f) : inv U f x ∈ U ∧ f (inv U f x) = x := by
  obtain ⟨a, ha, rfl⟩ := Finset.mem_image.1 hx
  have : ∃ y ∈ (U : Set ℕ), f y = f a := ⟨a, by simpa using ha, rfl⟩
  exact ⟨Finset.mem_coe.1 (Function.invFunOn_mem this), Function.invFunOn_eq this⟩

theorem inv_apply {lt lt' : ℕ → ℕ → Prop} (φ : CausalIso lt lt' U f) {a : ℕ} (ha : a ∈ U) : inv U f (f a) = a := by
  obtain ⟨h1, h2⟩ := φ.inv_mem (Finset.mem_image_of_mem f ha)
  exact φ.inj _ h1 _ ha h2

theorem image_inv {lt lt' : ℕ → ℕ → Prop} (φ : CausalIso lt lt' U f) : (U.image f).image (inv U f) = U := by
  ext x
  simp only [Finset.mem_image]
  constructor
  · rintro ⟨_, ⟨a, ha, rfl⟩, rfl⟩
    rw [φ.inv_apply ha]; exact ha
  · intro hx
    exact ⟨f x, ⟨x, hx, rfl⟩, φ.inv_apply hx⟩

theorem symm {lt lt' : ℕ → ℕ → Prop} (φ : CausalIso lt lt' U f) : CausalIso lt' lt (U.image f) (inv U f) where
  inj := fun a ha b hb hab => by
    rw [← (φ.inv_mem ha).2, ← (φ.inv_mem hb).2, hab]
  closed := φ.closed'
  closed' := by rw [φ.image_inv]; exact φ.closed
  iff := fun a ha b hb => by
    have h1 := φ.inv_mem ha
    have h2 := φ.inv_mem hb
    rw [φ.iff _ h1.1 _ h2.1, h1.2, h2.2]

theorem mem_iff {lt lt' : ℕ → ℕ → Prop} (φ : CausalIso lt lt' U f) {a : ℕ} (ha : a ∈ U) {s : Finset ℕ} (hs : s ⊆ U) : f a ∈ s.image f ↔ a ∈ s := by
  rw [Finset.mem_image]
  constructor
  · rintro ⟨b, hb, hab⟩
    rw [← φ.inj _ (hs hb) _ ha hab]; exact hb
  · exact fun hx => ⟨a, hx, rfl⟩

theorem injOn {lt lt' : ℕ → ℕ → Prop} (φ : CausalIso lt lt' U f) {s : Finset ℕ} (hs : s ⊆ U) : Set.InjOn f (s : Set ℕ) :=
  fun a ha b hb hab => φ.inj a (hs (by simpa using ha)) b (hs (by simpa using hb)) hab

theorem card {lt lt' : ℕ → ℕ → Prop} (φ : CausalIso lt lt' U f) {s : Finset ℕ} (hs : s ⊆ U) : (s.image f).card = s.card :=
  Finset.card_image_of_injOn (φ.injOn hs)

theorem inter {lt lt' : ℕ → ℕ → Prop} (φ : CausalIso lt lt' U f) {s t : Finset ℕ} (hs : s ⊆ U) (ht : t ⊆ U) : s.image f ∩ t.image f = (s ∩ t).image f := by
  ext x
  simp only [Finset.mem_inter, Finset.mem_image]
  constructor
  · rintro ⟨⟨a, ha, rfl⟩, ⟨b, hb, hab⟩⟩
    have := φ.inj _ (ht hb) _ (hs ha) hab
    subst this
    exact ⟨b, ⟨ha, hb⟩, rfl⟩
  · rintro ⟨a, ⟨h1, h2⟩, rfl⟩
    exact ⟨⟨a, h1, rfl⟩, ⟨a, h2, rfl⟩⟩

theorem sdiff {lt lt' : ℕ → ℕ → Prop} (φ : CausalIso lt lt' U f) {s t : Finset ℕ} (hs : s ⊆ U) (ht : t ⊆ U) : s.image f \ t.image f = (s \ t).image f := by
  ext x
  simp only [Finset.mem_sdiff, Finset.mem_image]
  constructor
  · rintro ⟨⟨a, ha, rfl⟩, hn⟩
    exact ⟨a, ⟨ha, fun hx => hn ⟨a, hx, rfl⟩⟩, rfl⟩
  · rintro ⟨a, ⟨h1, h2⟩, rfl⟩
    refine ⟨⟨a, h1, rfl⟩, ?_⟩
    rintro ⟨b, hb, hab⟩
    exact h2 (φ.inj _ (ht hb) _ (hs h1) hab ▸ hb)

theorem filter {p p' : ℕ → Prop} [DecidablePred p] [DecidablePred p'] {s : Finset ℕ} (hp : ∀ a ∈ s, p' (f a) ↔ p a) :
    (s.image f).filter p' = (s.filter p).image f := by
  ext x
  simp only [Finset.mem_filter, Finset.mem_image]
  constructor
  · rintro ⟨⟨a, ha, rfl⟩, hq⟩
    exact ⟨a, ⟨ha, (hp a ha).1 hq⟩, rfl⟩
  · rintro ⟨a, ⟨h1, h2⟩, rfl⟩
    exact ⟨⟨a, h1, rfl⟩, (hp a h1).2 h2⟩

theorem toFinset_map (f : ℕ → ℕ) (l : List ℕ) : (l.map f).toFinset = l.toFinset.image f := by
  ext x; simp

theorem image_eq_empty (f : ℕ → ℕ) (s : Finset ℕ) : s.image f = ∅ ↔ s = ∅ := Finset.image_eq_empty

/-! ## The order -/

section
variable (φ : CausalIso h.Lt h'.Lt U f) (v : h.Valid) (v' : h'.Valid)
include φ v v'

theorem past_sub {a : EId} (ha : a ∈ U) : h.past a ⊆ U := fun x hx => φ.closed a ha x (.inr ((v.past_eq _ _).1 hx))

theorem future_sub {a : EId} (ha : a ∈ U) : h.future a ⊆ U := fun x hx => φ.closed a ha x (.inl ((v.future_eq _ _).1 hx))

theorem past {a : EId} (ha : a ∈ U) : h'.past (f a) = (h.past a).image f := by
  ext x
  rw [v'.past_eq, Finset.mem_image]
  constructor
  · intro hx
    have hU := φ.closed' (f a) (Finset.mem_image_of_mem f ha) x (.inr hx)
    obtain ⟨y, hy, rfl⟩ := Finset.mem_image.1 hU
    exact ⟨y, (v.past_eq _ _).2 ((φ.iff _ hy _ ha).2 hx), rfl⟩
  · rintro ⟨y, hy, rfl⟩
    exact (φ.iff _ (φ.past_sub v v' ha hy) _ ha).1 ((v.past_eq _ _).1 hy)

theorem future {a : EId} (ha : a ∈ U) : h'.future (f a) = (h.future a).image f := by
  ext x
  rw [v'.future_eq, Finset.mem_image]
  constructor
  · intro hx
    have hU := φ.closed' (f a) (Finset.mem_image_of_mem f ha) x (.inl hx)
    obtain ⟨y, hy, rfl⟩ := Finset.mem_image.1 hU
    exact ⟨y, (v.future_eq _ _).2 ((φ.iff _ ha _ hy).2 hx), rfl⟩
  · rintro ⟨y, hy, rfl⟩
    exact (φ.iff _ ha _ (φ.future_sub v v' ha hy)).1 ((v.future_eq _ _).1 hy)

theorem prec {a : EId} (ha : a ∈ U) : h'.prec (f a) = (h.prec a).image f := φ.past v v' ha

theorem succ {a : EId} (ha : a ∈ U) : h'.succ (f a) = (h.succ a).image f := φ.future v v' ha

theorem prec_sub {a : EId} (ha : a ∈ U) : h.prec a ⊆ U := φ.past_sub v v' ha

theorem succ_sub {a : EId} (ha : a ∈ U) : h.succ a ⊆ U := φ.future_sub v v' ha

theorem lt {a b : EId} (ha : a ∈ U) (hb : b ∈ U) : h'.lt (f a) (f b) = h.lt a b := by
  rw [Bool.eq_iff_iff]
  simp only [Heap.lt, decide_eq_true_eq, φ.prec v v' hb]
  exact φ.mem_iff ha (φ.past_sub v v' hb)

theorem eq_iff {a b : EId} (ha : a ∈ U) (hb : b ∈ U) : f a = f b ↔ a = b := ⟨φ.inj a ha b hb, fun hx => by rw [hx]⟩

theorem le {a b : EId} (ha : a ∈ U) (hb : b ∈ U) : h'.le (f a) (f b) = h.le a b := by
  rw [Bool.eq_iff_iff]
  simp only [Heap.le, Bool.or_eq_true, decide_eq_true_eq, φ.prec v v' hb, φ.eq_iff v v' ha hb]
  rw [φ.mem_iff ha (φ.prec_sub v v' hb)]

theorem gt {a b : EId} (ha : a ∈ U) (hb : b ∈ U) : h'.gt (f a) (f b) = h.gt a b := φ.lt v v' hb ha

theorem ge {a b : EId} (ha : a ∈ U) (hb : b ∈ U) : h'.ge (f a) (f b) = h.ge a b := by
  rw [Bool.eq_iff_iff]
  simp only [Heap.ge, Bool.or_eq_true, decide_eq_true_eq, φ.prec v v' ha, φ.eq_iff v v' ha hb]
  rw [φ.mem_iff hb (φ.prec_sub v v' ha)]

theorem cone_sub {a : EId} (ha : a ∈ U) : h.cone a ⊆ U := by
  intro x hx
  simp only [Heap.cone, Finset.mem_union, Finset.mem_singleton] at hx
  rcases hx with (hx | rfl) | hx
  · exact φ.past_sub v v' ha hx
  · exact ha
  · exact φ.future_sub v v' ha hx

theorem cone {a : EId} (ha : a ∈ U) : h'.cone (f a) = (h.cone a).image f := by
  simp only [Heap.cone, φ.prec v v' ha, φ.succ v v' ha, Finset.image_union, Finset.image_singleton]

theorem presentOrPast {a : EId} (ha : a ∈ U) : h'.presentOrPast (f a) = (h.presentOrPast a).image f := by
  simp only [Heap.presentOrPast, φ.prec v v' ha, Finset.image_union, Finset.image_singleton]

theorem presentOrFuture {a : EId} (ha : a ∈ U) : h'.presentOrFuture (f a) = (h.presentOrFuture a).image f := by
  simp only [Heap.presentOrFuture, φ.succ v v' ha, Finset.image_union, Finset.image_singleton]

theorem presentOrPast_sub {a : EId} (ha : a ∈ U) : h.presentOrPast a ⊆ U := fun x hx =>
  φ.cone_sub v v' ha (Finset.mem_union_left _ hx)

theorem presentOrFuture_sub {a : EId} (ha : a ∈ U) : h.presentOrFuture a ⊆ U := fun x hx => by
  simp only [Heap.presentOrFuture, Finset.mem_union, Finset.mem_singleton] at hx
  rcases hx with hx | rfl
  · exact φ.future_sub v v' ha hx
  · exact ha

theorem isCausalTo {a b : EId} (ha : a ∈ U) (hb : b ∈ U) : h'.isCausalTo (f a) (f b) = h.isCausalTo a b := by
  simp only [Heap.isCausalTo, φ.le v v' ha hb, φ.gt v v' ha hb]

theorem isSpacelikeTo {a b : EId} (ha : a ∈ U) (hb : b ∈ U) : h'.isSpacelikeTo (f a) (f b) = h.isSpacelikeTo a b := by
  rw [Bool.eq_iff_iff]
  simp only [Heap.isSpacelikeTo, φ.prec v v' ha, φ.succ v v' ha, φ.eq_iff v v' ha hb, φ.prec v v' hb, φ.succ v v' hb]
  have h1 : f b ∈ (h.prec a).image f ↔ b ∈ h.prec a := φ.mem_iff hb (φ.past_sub v v' ha)
  have h2 : f b ∈ (h.succ a).image f ↔ b ∈ h.succ a := φ.mem_iff hb (φ.future_sub v v' ha)
  simp [h1, h2, φ.eq_iff v v' hb ha]

theorem pastCard {a : EId} (ha : a ∈ U) : h'.pastCard (f a) = h.pastCard a := by
  simp only [Heap.pastCard, φ.prec v v' ha]; exact φ.card (φ.past_sub v v' ha)

theorem futureCard {a : EId} (ha : a ∈ U) : h'.futureCard (f a) = h.futureCard a := by
  simp only [Heap.futureCard, φ.succ v v' ha]; exact φ.card (φ.future_sub v v' ha)

theorem coneCard {a : EId} (ha : a ∈ U) : h'.coneCard (f a) = h.coneCard a := by
  have h1 := φ.pastCard v v' ha
  have h2 := φ.futureCard v v' ha
  simp only [Heap.pastCard, Heap.futureCard] at h1 h2
  simp only [Heap.coneCard, h1, h2]

theorem spacelike {a : EId} (ha : a ∈ U) {s : Finset EId} (hs : s ⊆ U) : h'.spacelike (f a) (s.image f) = (h.spacelike a s).image f := by
  simp only [Heap.spacelike, φ.cone v v' ha]
  exact φ.sdiff hs (φ.cone_sub v v' ha)

theorem spacelikeCard {a : EId} (ha : a ∈ U) {s : Finset EId} (hs : s ⊆ U) : h'.spacelikeCard (f a) (s.image f) = h.spacelikeCard a s := by
  simp only [Heap.spacelikeCard, φ.prec v v' ha, φ.succ v v' ha, φ.mem_iff ha hs, φ.sdiff hs (φ.prec_sub v v' ha),
    φ.sdiff (Finset.sdiff_subset.trans hs) (φ.succ_sub v v' ha), φ.card (Finset.sdiff_subset.trans (Finset.sdiff_subset.trans hs))]

theorem isLink {a b : EId} (ha : a ∈ U) (hb : b ∈ U) : h'.isLink (f a) (f b) = h.isLink a b := by
  rw [Bool.eq_iff_iff]
  simp only [Heap.isLink, decide_eq_true_eq, φ.succ v v' ha, φ.prec v v' hb]
  rw [φ.inter (φ.succ_sub v v' ha) (φ.prec_sub v v' hb), Finset.image_eq_empty]

theorem pastLinks {a : EId} (ha : a ∈ U) : h'.pastLinks (f a) = (h.pastLinks a).image f := by
  unfold Heap.pastLinks
  rw [φ.prec v v' ha]
  exact filter fun x hx => by rw [φ.isLink v v' (φ.past_sub v v' ha hx) ha]

theorem futureLinks {a : EId} (ha : a ∈ U) : h'.futureLinks (f a) = (h.futureLinks a).image f := by
  unfold Heap.futureLinks
  rw [φ.succ v v' ha]
  exact filter fun x hx => by rw [φ.isLink v v' ha (φ.future_sub v v' ha hx)]

/-! ## Cones of sets -/

theorem pastOf_sub (it : Iter) {s : Finset EId} (hs : s ⊆ U) (p i : Bool) : h.pastOf it s p i ⊆ U := by
  intro x hx
  cases i
  · rcases (C24_pastOf it v s p x).1 hx with ⟨-, hx⟩ | ⟨e, he, hx⟩
    · exact hs hx
    · exact φ.closed e (hs he) x (.inr hx)
  · rw [(C25_refuted it h s p).1] at hx; simp at hx

theorem futureOf_sub (it : Iter) {s : Finset EId} (hs : s ⊆ U) (p i : Bool) : h.futureOf it s p i ⊆ U := by
  intro x hx
  cases i
  · rcases (C24_futureOf it v s p x).1 hx with ⟨-, hx⟩ | ⟨e, he, hx⟩
    · exact hs hx
    · exact φ.closed e (hs he) x (.inl hx)
  · rw [(C25_refuted it h s p).2.1] at hx; simp at hx

theorem coneOf_sub (it : Iter) {s : Finset EId} (hs : s ⊆ U) (p i : Bool) : h.coneOf it s p i ⊆ U := by
  intro x hx
  cases i
  · rcases (C24_coneOf it v s p x).1 hx with ⟨-, hx⟩ | ⟨e, he, hx⟩
    · exact hs hx
    · exact φ.closed e (hs he) x hx
  · rw [(C25_refuted it h s p).2.2] at hx; simp at hx

omit v v' in
theorem of_mem {A B : Finset EId} (hA : A ⊆ U) (hB : B ⊆ U.image f) (hAB : ∀ a ∈ U, f a ∈ B ↔ a ∈ A) : B = A.image f := by
  ext x
  rw [Finset.mem_image]
  constructor
  · intro hx
    obtain ⟨a, ha, rfl⟩ := Finset.mem_image.1 (hB hx)
    exact ⟨a, (hAB a ha).1 hx, rfl⟩
  · rintro ⟨a, ha, rfl⟩
    exact (hAB a (hA ha)).2 ha

theorem exists_iff {s : Finset EId} (hs : s ⊆ U) {P P' : EId → Prop} (hP : ∀ e ∈ s, P' (f e) ↔ P e) : (∃ e ∈ s.image f, P' e) ↔ ∃ e ∈ s, P e := by
  constructor
  · rintro ⟨_, he', hp⟩
    obtain ⟨e, he, rfl⟩ := Finset.mem_image.1 he'
    exact ⟨e, he, (hP e he).1 hp⟩
  · rintro ⟨e, he, hp⟩
    exact ⟨f e, Finset.mem_image_of_mem f he, (hP e he).2 hp⟩

theorem forall_iff {s : Finset EId} (hs : s ⊆ U) {P P' : EId → Prop} (hP : ∀ e ∈ s, P' (f e) ↔ P e) : (∀ e ∈ s.image f, P' e) ↔ ∀ e ∈ s, P e := by
  constructor
  · intro hx e he
    exact (hP e he).1 (hx _ (Finset.mem_image_of_mem f he))
  · intro hx _ he'
    obtain ⟨e, he, rfl⟩ := Finset.mem_image.1 he'
    exact (hP e he).2 (hx e he)

theorem pastOf (it it' : Iter) {s : Finset EId} (hs : s ⊆ U) (p i : Bool) : h'.pastOf it' (s.image f) p i = (h.pastOf it s p i).image f := by
  refine φ.of_mem (φ.pastOf_sub v v' it hs p i) (φ.symm.pastOf_sub v' v it' (Finset.image_subset_image hs) p i) fun a ha => ?_
  cases i
  · rw [C24_pastOf it' v', C24_pastOf it v, φ.mem_iff ha hs, φ.exists_iff v v' hs (fun e he => (φ.iff a ha e (hs he)).symm)]
  · rw [(C25_refuted it' h' _ p).1, (C25_refuted it h s p).1]; simp

theorem futureOf (it it' : Iter) {s : Finset EId} (hs : s ⊆ U) (p i : Bool) : h'.futureOf it' (s.image f) p i = (h.futureOf it s p i).image f := by
  refine φ.of_mem (φ.futureOf_sub v v' it hs p i) (φ.symm.futureOf_sub v' v it' (Finset.image_subset_image hs) p i) fun a ha => ?_
  cases i
  · rw [C24_futureOf it' v', C24_futureOf it v, φ.mem_iff ha hs, φ.exists_iff v v' hs (fun e he => (φ.iff e (hs he) a ha).symm)]
  · rw [(C25_refuted it' h' _ p).2.1, (C25_refuted it h s p).2.1]; simp

omit v v' in
theorem related {a b : EId} (ha : a ∈ U) (hb : b ∈ U) : Related h'.Lt (f a) (f b) ↔ Related h.Lt a b := by
  unfold Related
  rw [φ.iff a ha b hb, φ.iff b hb a ha]

theorem coneOf (it it' : Iter) {s : Finset EId} (hs : s ⊆ U) (p i : Bool) : h'.coneOf it' (s.image f) p i = (h.coneOf it s p i).image f := by
  refine φ.of_mem (φ.coneOf_sub v v' it hs p i) (φ.symm.coneOf_sub v' v it' (Finset.image_subset_image hs) p i) fun a ha => ?_
  cases i
  · rw [C24_coneOf it' v', C24_coneOf it v, φ.mem_iff ha hs, φ.exists_iff v v' hs (P' := fun e => Related h'.Lt e (f a)) (P := fun e => Related h.Lt e a) (fun e he => φ.related (hs he) ha)]
  · rw [(C25_refuted it' h' _ p).2.2, (C25_refuted it h s p).2.2]; simp

theorem spacelikeTo (it it' : Iter) {C s : Finset EId} (hC : C ⊆ U) (hs : s ⊆ U) : h'.spacelikeTo it' (C.image f) (s.image f) = (h.spacelikeTo it C s).image f := by
  unfold Heap.spacelikeTo
  rw [φ.coneOf v v' it it' hs, φ.sdiff hC (φ.coneOf_sub v v' it hs true false)]

/-! ## Chains, infinities, intervals -/

theorem isChain (it it' : Iter) {C : Finset EId} (hC : C ⊆ U) (o : Option (Finset EId)) (ho : ∀ s ∈ o, s ⊆ U) :
    h'.isChain it' (C.image f) (o.map (fun s => s.image f)) = h.isChain it C o := by
  rw [Bool.eq_iff_iff]
  cases o with
  | none =>
    simp only [Heap.isChain, Option.map_none, List.all_eq_true, it.mem, it'.mem, φ.card hC, decide_eq_true_eq]
    exact φ.forall_iff v v' hC (fun e he => by rw [φ.coneCard v v' (hC he)])
  | some s =>
    have hs := ho s rfl
    simp only [Heap.isChain, Option.map_some, List.all_eq_true, it.mem, it'.mem, φ.card hs, decide_eq_true_eq]
    exact φ.forall_iff v v' hs (fun e he => by
      rw [φ.cone v v' (hs he), φ.inter (φ.cone_sub v v' (hs he)) hs, φ.card (Finset.inter_subset_right.trans hs)])

theorem isAntichain (it it' : Iter) {C : Finset EId} (hC : C ⊆ U) (o : Option (Finset EId)) (ho : ∀ s ∈ o, s ⊆ U) :
    h'.isAntichain it' (C.image f) (o.map (fun s => s.image f)) = h.isAntichain it C o := by
  rw [Bool.eq_iff_iff]
  cases o with
  | none =>
    simp only [Heap.isAntichain, Option.map_none, List.all_eq_true, it.mem, it'.mem, decide_eq_true_eq]
    exact φ.forall_iff v v' hC (fun e he => by rw [φ.coneCard v v' (hC he)])
  | some s =>
    have hs := ho s rfl
    simp only [Heap.isAntichain, Option.map_some, List.all_eq_true, it.mem, it'.mem, decide_eq_true_eq]
    exact φ.forall_iff v v' hs (fun e he => by
      rw [φ.cone v v' (hs he), φ.inter (φ.cone_sub v v' (hs he)) hs, φ.card (Finset.inter_subset_right.trans hs)])

theorem pastInf {C : Finset EId} (hC : C ⊆ U) : h'.pastInf (C.image f) = (h.pastInf C).image f :=
  filter fun e he => by rw [φ.pastCard v v' (hC he)]

theorem futureInf {C : Finset EId} (hC : C ⊆ U) : h'.futureInf (C.image f) = (h.futureInf C).image f :=
  filter fun e he => by rw [φ.futureCard v v' (hC he)]

theorem pastInfOf {s : Finset EId} (hs : s ⊆ U) : h'.pastInfOf (s.image f) = (h.pastInfOf s).image f :=
  filter fun e he => by rw [φ.past v v' (hs he), φ.inter (φ.past_sub v v' (hs he)) hs, Finset.image_eq_empty]

theorem futureInfOf {s : Finset EId} (hs : s ⊆ U) : h'.futureInfOf (s.image f) = (h.futureInfOf s).image f :=
  filter fun e he => by rw [φ.future v v' (hs he), φ.inter (φ.future_sub v v' (hs he)) hs, Finset.image_eq_empty]

theorem interval_sub {a b : EId} (ha : a ∈ U) (hb : b ∈ U) (ib : Bool) : h.interval a b ib ⊆ U := by
  unfold Heap.interval
  split
  · simp
  · split
    · simpa using ha
    · split
      · exact Finset.inter_subset_left.trans (φ.presentOrFuture_sub v v' ha)
      · exact Finset.inter_subset_left.trans (φ.future_sub v v' ha)

theorem interval {a b : EId} (ha : a ∈ U) (hb : b ∈ U) (ib : Bool) : h'.interval (f a) (f b) ib = (h.interval a b ib).image f := by
  unfold Heap.interval
  rw [φ.le v v' ha hb, φ.presentOrFuture v v' ha, φ.presentOrPast v v' hb, φ.future v v' ha, φ.past v v' hb,
    φ.inter (φ.presentOrFuture_sub v v' ha) (φ.presentOrPast_sub v v' hb), φ.inter (φ.future_sub v v' ha) (φ.past_sub v v' hb)]
  simp only [φ.eq_iff v v' ha hb]
  split
  · rfl
  · split
    · simp
    · split <;> rfl

theorem intervalCard {a b : EId} (ha : a ∈ U) (hb : b ∈ U) (ib : Bool) : h'.intervalCard (f a) (f b) ib = h.intervalCard a b ib := by
  unfold Heap.intervalCard
  rw [φ.le v v' ha hb, φ.future v v' ha, φ.past v v' hb, φ.inter (φ.future_sub v v' ha) (φ.past_sub v v' hb),
    φ.card (Finset.inter_subset_left.trans (φ.future_sub v v' ha))]
  simp only [φ.eq_iff v v' ha hb]

/-! ## Layers -/

theorem sup_image {s : Finset EId} {F F' : EId → ℕ} (hF : ∀ e ∈ s, F' (f e) = F e) : (s.image f).sup F' = s.sup F := by
  rw [Finset.sup_image]
  exact Finset.sup_congr rfl hF

theorem layerDown {s : Finset EId} (hs : s ⊆ U) {a : EId} (ha : a ∈ U) : h'.layerDown (s.image f) (f a) = h.layerDown s a := by
  unfold Heap.layerDown
  rw [φ.future v v' ha, φ.inter (φ.future_sub v v' ha) hs]
  simp only [ne_eq, Finset.image_eq_empty]
  rw [φ.sup_image v v' (F := fun b => h.intervalCard a b true) (fun e he => φ.intervalCard v v' ha (hs (Finset.mem_inter.1 he).2) true)]

theorem layerUp {s : Finset EId} (hs : s ⊆ U) {b : EId} (hb : b ∈ U) : h'.layerUp (s.image f) (f b) = h.layerUp s b := by
  unfold Heap.layerUp
  rw [φ.past v v' hb, φ.inter (φ.past_sub v v' hb) hs]
  simp only [ne_eq, Finset.image_eq_empty]
  rw [φ.sup_image v v' (F := fun a => h.intervalCard a b true) (fun e he => φ.intervalCard v v' (hs (Finset.mem_inter.1 he).2) hb true)]

theorem layers_sub (it : Iter) {s : Finset EId} (hs : s ⊆ U) (first : ℤ) (last : Option ℤ) : h.layers it s first last ⊆ U := by
  intro x hx
  unfold Heap.layers at hx
  have h1 := φ.pastOf_sub v v' it hs true false
  have h2 := φ.futureOf_sub v v' it hs true false
  dsimp only at hx
  split at hx
  · simp at hx
  · split at hx
    · rcases Finset.mem_union.1 hx with hx | hx
      · split at hx
        · exact h1 (Finset.mem_filter.1 hx).1
        · simp at hx
      · exact h2 (Finset.mem_filter.1 hx).1
    · split at hx
      · exact h1 (Finset.mem_filter.1 hx).1
      · simp at hx

theorem layers (it it' : Iter) {s : Finset EId} (hs : s ⊆ U) (first : ℤ) (last : Option ℤ) :
    h'.layers it' (s.image f) first last = (h.layers it s first last).image f := by
  unfold Heap.layers
  dsimp only
  rw [φ.card hs, φ.pastOf v v' it it' hs, φ.futureOf v v' it it' hs]
  rw [filter (p := fun a => first ≤ h.layerDown s a ∧ h.layerDown s a ≤ min 0 (last.getD first)) (fun a ha => by rw [φ.layerDown v v' hs (φ.pastOf_sub v v' it hs true false ha)]),
    filter (p := fun b => max first 0 ≤ h.layerUp s b ∧ h.layerUp s b ≤ last.getD first) (fun a ha => by rw [φ.layerUp v v' hs (φ.futureOf_sub v v' it hs true false ha)])]
  split
  · rfl
  · split <;> split <;> simp [Finset.image_union]

theorem layerNumbers {l : List EId} (hl : ∀ x ∈ l, x ∈ U) (r : Bool) : h'.layerNumbers (l.map f) r = h.layerNumbers l r := by
  have hs : l.toFinset ⊆ U := fun x hx => hl x (by simpa using hx)
  unfold Heap.layerNumbers
  rw [toFinset_map, φ.card hs]
  split
  · rfl
  · rw [List.map_map]
    refine List.map_congr_left fun x hx => ?_
    simp only [Function.comp]
    rw [φ.layerDown v v' hs (hl x hx), φ.layerUp v v' hs (hl x hx)]

theorem layeredLoop (it it' : Iter) {s : Finset EId} (hs : s ⊆ U) (step : ℤ) : ∀ (fuel : ℕ) (layer : Finset EId), layer ⊆ U →
    h'.layeredLoop it' (s.image f) step fuel (layer.image f) = (h.layeredLoop it s step fuel layer).map (List.map (fun l => l.image f))
  | 0, layer, _ => by
    unfold Heap.layeredLoop
    simp only [Finset.image_eq_empty]
    split <;> rfl
  | fuel + 1, layer, hl => by
    unfold Heap.layeredLoop
    simp only [Finset.image_eq_empty]
    have h1 := φ.layers_sub v v' it hl step none
    rw [φ.layers v v' it it' hl, φ.inter h1 hs, layeredLoop it it' hs step fuel _ (Finset.inter_subset_right.trans hs)]
    split
    · rfl
    · cases h.layeredLoop it s step fuel (h.layers it layer step none ∩ s) <;> rfl

theorem layered (it it' : Iter) {C : Finset EId} (hC : C ⊆ U) (o : Option (Finset EId)) (ho : ∀ s ∈ o, s ⊆ U) (r : Bool) :
    h'.layered it' (C.image f) (o.map (fun s => s.image f)) r = (h.layered it C o r).map (List.map (fun l => l.image f)) := by
  have hs : o.getD C ⊆ U := by
    cases o with
    | none => exact hC
    | some s => exact ho s rfl
  have he : (o.map (fun s => s.image f)).getD (C.image f) = (o.getD C).image f := by cases o <;> rfl
  unfold Heap.layered
  dsimp only
  rw [he, φ.card hs, φ.futureInfOf v v' hs, φ.pastInfOf v v' hs]
  have h1 : h.futureInfOf (o.getD C) ⊆ U := (Finset.filter_subset _ _).trans hs
  have h2 : h.pastInfOf (o.getD C) ⊆ U := (Finset.filter_subset _ _).trans hs
  split
  · exact φ.layeredLoop v v' it it' hs (-1) _ _ h1
  · exact φ.layeredLoop v v' it it' hs 1 _ _ h2

/-! ## Smallest intervals and distances -/

omit v v' in
theorem cardIn {X : Finset EId} (hX : X ⊆ U) (o : Option (Finset EId)) (ho : ∀ s ∈ o, s ⊆ U) :
    Heap.cardIn (X.image f) (o.map (fun s => s.image f)) = Heap.cardIn X o := by
  cases o with
  | none => exact φ.card hX
  | some t =>
    simp only [Heap.cardIn, Option.map_some]
    rw [φ.inter hX (ho t rfl), φ.card (Finset.inter_subset_left.trans hX)]

theorem intervalCardIn {a b : EId} (ha : a ∈ U) (hb : b ∈ U) (o : Option (Finset EId)) (ho : ∀ s ∈ o, s ⊆ U) :
    h'.intervalCardIn (f a) (f b) (o.map (fun s => s.image f)) = h.intervalCardIn a b o := by
  cases o with
  | none => exact φ.intervalCard v v' ha hb true
  | some t =>
    simp only [Heap.intervalCardIn, Option.map_some]
    rw [φ.interval v v' ha hb, φ.inter (φ.interval_sub v v' ha hb true) (ho t rfl), φ.card (Finset.inter_subset_right.trans (ho t rfl))]

omit φ v v' in
theorem minOver_image {α β : Type} [DecidableEq β] (s : Finset α) (g : α → β) (F : α → ℕ) (F' : β → ℕ) (hF : ∀ e ∈ s, F' (g e) = F e) :
    Heap.minOver (s.image g) F' = Heap.minOver s F := by
  unfold Heap.minOver
  by_cases hs : s.Nonempty
  · rw [dif_pos hs, dif_pos (hs.image g)]
    rw [Finset.inf'_image]
    exact Finset.inf'_congr hs rfl hF
  · rw [dif_neg hs, dif_neg (by rwa [Finset.image_nonempty])]

theorem smallestCommon {a b : EId} (ha : a ∈ U) (hb : b ∈ U) {S : Finset EId} (hS : S ⊆ U) (o : Option (Finset EId)) (ho : ∀ s ∈ o, s ⊆ U) :
    h'.smallestCommon (f a) (f b) (S.image f) (o.map (fun s => s.image f)) = h.smallestCommon a b S o := by
  unfold Heap.smallestCommon
  dsimp only
  have hp : h.past a ∩ h.past b ∩ S ⊆ U := Finset.inter_subset_right.trans hS
  have hf : h.future a ∩ h.future b ∩ S ⊆ U := Finset.inter_subset_right.trans hS
  rw [φ.past v v' ha, φ.past v v' hb, φ.future v v' ha, φ.future v v' hb, φ.inter (φ.past_sub v v' ha) (φ.past_sub v v' hb),
    φ.inter (φ.future_sub v v' ha) (φ.future_sub v v' hb), φ.inter (Finset.inter_subset_left.trans (φ.past_sub v v' ha)) hS,
    φ.inter (Finset.inter_subset_left.trans (φ.future_sub v v' ha)) hS]
  simp only [Finset.image_eq_empty]
  have e1 : Heap.minOver ((h.future a ∩ h.future b ∩ S).image f) (fun e => Heap.cardIn (h'.past e) (o.map (fun s => s.image f))) =
      Heap.minOver (h.future a ∩ h.future b ∩ S) (fun e => Heap.cardIn (h.past e) o) :=
    minOver_image _ _ _ _ fun e he => by rw [φ.past v v' (hf he), φ.cardIn (φ.past_sub v v' (hf he)) o ho]
  have e2 : Heap.minOver ((h.past a ∩ h.past b ∩ S).image f) (fun e => Heap.cardIn (h'.future e) (o.map (fun s => s.image f))) =
      Heap.minOver (h.past a ∩ h.past b ∩ S) (fun e => Heap.cardIn (h.future e) o) :=
    minOver_image _ _ _ _ fun e he => by rw [φ.future v v' (hp he), φ.cardIn (φ.future_sub v v' (hp he)) o ho]
  have e3 : Heap.minOver ((h.past a ∩ h.past b ∩ S).image f ×ˢ (h.future a ∩ h.future b ∩ S).image f) (fun x => h'.intervalCardIn x.1 x.2 (o.map (fun s => s.image f))) =
      Heap.minOver ((h.past a ∩ h.past b ∩ S) ×ˢ (h.future a ∩ h.future b ∩ S)) (fun x => h.intervalCardIn x.1 x.2 o) := by
    rw [← Finset.prodMap_image_product]
    refine minOver_image _ _ _ _ fun e he => ?_
    obtain ⟨h1, h2⟩ := Finset.mem_product.1 he
    exact φ.intervalCardIn v v' (hp h1) (hf h2) o ho
  rw [e1, e2, e3]

theorem smallestIntervalCard {C : Finset EId} (hC : C ⊆ U) {a b : EId} (ha : a ∈ U) (hb : b ∈ U) (p o : Option (Finset EId)) (hp : ∀ s ∈ p, s ⊆ U) (ho : ∀ s ∈ o, s ⊆ U) :
    h'.smallestIntervalCard (C.image f) (f a) (f b) (p.map (fun s => s.image f)) (o.map (fun s => s.image f)) = h.smallestIntervalCard C a b p o := by
  have main : ∀ a ∈ U, ∀ b ∈ U, (if h'.le (f a) (f b) then
      match (generalizing := false) p.map (fun s => s.image f) with
      | none => h'.intervalCardIn (f a) (f b) (o.map (fun s => s.image f))
      | some t =>
        if f a ∈ t ∧ f b ∈ t then h'.intervalCardIn (f a) (f b) (o.map (fun s => s.image f))
        else if f a ∈ t then Heap.cardIn (h'.future (f a)) (o.map (fun s => s.image f))
        else if f b ∈ t then Heap.cardIn (h'.past (f b)) (o.map (fun s => s.image f))
        else h'.smallestCommon (f a) (f b) t (o.map (fun s => s.image f))
      else h'.smallestCommon (f a) (f b) ((p.map (fun s => s.image f)).getD (C.image f)) (o.map (fun s => s.image f))) =
      (if h.le a b then
      match (generalizing := false) p with
      | none => h.intervalCardIn a b o
      | some t =>
        if a ∈ t ∧ b ∈ t then h.intervalCardIn a b o
        else if a ∈ t then Heap.cardIn (h.future a) o
        else if b ∈ t then Heap.cardIn (h.past b) o
        else h.smallestCommon a b t o
      else h.smallestCommon a b (p.getD C) o) := by
    intro a ha b hb
    rw [φ.le v v' ha hb]
    cases p with
    | none =>
      simp only [Option.map_none, Option.getD_none]
      rw [φ.intervalCardIn v v' ha hb o ho, φ.smallestCommon v v' ha hb hC o ho]
    | some t =>
      have ht := hp t rfl
      simp only [Option.map_some, Option.getD_some]
      rw [φ.intervalCardIn v v' ha hb o ho, φ.smallestCommon v v' ha hb ht o ho, φ.future v v' ha, φ.past v v' hb, φ.cardIn (φ.future_sub v v' ha) o ho, φ.cardIn (φ.past_sub v v' hb) o ho]
      simp only [φ.mem_iff ha ht, φ.mem_iff hb ht]
  unfold Heap.smallestIntervalCard
  rw [φ.gt v v' ha hb]
  cases hg : h.gt a b
  · exact main a ha b hb
  · exact main b hb a ha

theorem distNear {C : Finset EId} (hC : C ⊆ U) {ac : List EId} (hac : ∀ x ∈ ac, x ∈ U) (z : Bool) {slice : Finset EId} (hs : slice ⊆ U) (D : DMat) :
    h'.distNear (C.image f) (ac.map f) z (slice.image f) D = h.distNear C ac z slice D := by
  unfold Heap.distNear
  rw [List.length_map]
  have key : ∀ (L : List (ℕ × ℕ)), (∀ p ∈ L, p.1 < ac.length ∧ p.2 < ac.length) → ∀ D,
      L.foldl (fun D p => if D p.1 p.2 < 1 then
        let d : ℤ := (h'.smallestIntervalCard (C.image f) ((ac.map f).getD p.1 0) ((ac.map f).getD p.2 0) (some (slice.image f)) (some (ac.map f).toFinset) : ℤ) - 1
        setSym D p.1 p.2 (if z then min 1 d else d) else D) D =
      L.foldl (fun D p => if D p.1 p.2 < 1 then
        let d : ℤ := (h.smallestIntervalCard C (ac.getD p.1 0) (ac.getD p.2 0) (some slice) (some ac.toFinset) : ℤ) - 1
        setSym D p.1 p.2 (if z then min 1 d else d) else D) D := by
    intro L
    induction L with
    | nil => intro _ _; rfl
    | cons p L ih =>
      intro hL D
      obtain ⟨h1, h2⟩ := hL p (by simp)
      have g1 : ac.getD p.1 0 = ac[p.1] := by rw [List.getD_eq_getElem?_getD, List.getElem?_eq_getElem h1, Option.getD_some]
      have g2 : ac.getD p.2 0 = ac[p.2] := by rw [List.getD_eq_getElem?_getD, List.getElem?_eq_getElem h2, Option.getD_some]
      have g3 : (ac.map f).getD p.1 0 = f ac[p.1] := by
        rw [List.getD_eq_getElem?_getD, List.getElem?_eq_getElem (by simpa using h1), Option.getD_some, List.getElem_map]
      have g4 : (ac.map f).getD p.2 0 = f ac[p.2] := by
        rw [List.getD_eq_getElem?_getD, List.getElem?_eq_getElem (by simpa using h2), Option.getD_some, List.getElem_map]
      have e := φ.smallestIntervalCard v v' hC (hac _ (List.getElem_mem h1)) (hac _ (List.getElem_mem h2)) (some slice) (some ac.toFinset)
        (by rintro _ ⟨⟩; exact hs) (by rintro _ ⟨⟩; exact fun x hx => hac x (by simpa using hx))
      simp only [Option.map_some] at e
      rw [List.foldl_cons, List.foldl_cons]
      simp only [g1, g2, g3, g4, toFinset_map, e]
      have := ih (fun q hq => hL q (by simp [hq]))
      simp only [toFinset_map] at this
      exact this _
  refine key _ (fun p hp => ?_) D
  have := (mem_pairsBelow _ p).1 hp
  omega

theorem distWhile (it it' : Iter) {C : Finset EId} (hC : C ⊆ U) {ac : List EId} (hac : ∀ x ∈ ac, x ∈ U) (z r : Bool) :
    ∀ (fuel : ℕ) (slice thicker : Finset EId) (D : DMat), slice ⊆ U → thicker ⊆ U →
      h'.distWhile it' (C.image f) (ac.map f) z r fuel (slice.image f) (thicker.image f) D = h.distWhile it C ac z r fuel slice thicker D
  | 0, _, _, _, _, _ => rfl
  | fuel + 1, slice, thicker, D, hs, ht => by
    unfold Heap.distWhile
    dsimp only
    rw [φ.card hs, φ.card ht, φ.distNear v v' hC hac z ht, List.length_map, φ.layers v v' it it' ht]
    have ih := fun D2 => distWhile it it' hC hac z r fuel thicker (h.layers it thicker (-1) (some 1)) D2 ht (φ.layers_sub v v' it ht (-1) (some 1))
    split
    · split
      · rfl
      · rcases distLoopK ac.length ((List.range ac.length).filter (fun k => 1 ≤ k)) (h.distNear C ac z thicker D) (negCount ac.length (h.distNear C ac z thicker D)) with ⟨D2, c, _ | _⟩
        · exact ih D2
        · rfl
    · rfl

omit φ v v' in
theorem distWhile_mono (it : Iter) (h : Heap) (C : Finset EId) (ac : List EId) (z r : Bool) :
    ∀ (fuel k : ℕ) (slice thicker : Finset EId) (D D' : DMat), h.distWhile it C ac z r fuel slice thicker D = .ok D' →
      h.distWhile it C ac z r (fuel + k) slice thicker D = .ok D'
  | 0, _, _, _, _, _, he => by cases he
  | fuel + 1, k, slice, thicker, D, D', he => by
    rw [Nat.succ_add_eq_add_succ]
    unfold Heap.distWhile at he ⊢
    dsimp only at he ⊢
    split
    · next hlt =>
      rw [if_pos hlt] at he
      split
      · next hr => rw [if_pos hr] at he; exact he
      · next hr =>
        rw [if_neg hr] at he
        revert he
        generalize distLoopK ac.length _ _ _ = q
        obtain ⟨D2, c, b⟩ := q
        cases b
        · intro he
          exact distWhile_mono it h C ac z r fuel k _ _ _ _ he
        · exact fun he => he
    · next hlt => rw [if_neg hlt] at he; exact he

theorem distanceMatrix (it it' : Iter) {C : Finset EId} (hC : C ⊆ U) {ac : List EId} (hac : ∀ x ∈ ac, x ∈ U) (counting : String) (r : Bool) :
    h'.distanceMatrix it' (C.image f) (ac.map f) counting r = h.distanceMatrix it C ac counting r := by
  by_cases hc : counting = "ziczac" ∨ counting = "intersection"
  · obtain ⟨D, hD, -⟩ := (C40_distanceMatrix it v C ac counting r).1 hc
    obtain ⟨D', hD', -⟩ := (C40_distanceMatrix it' v' (C.image f) (ac.map f) counting r).1 hc
    have hs : ac.toFinset ⊆ U := fun x hx => hac x (by simpa using hx)
    rw [hD, hD']
    unfold Heap.distanceMatrix at hD hD'
    have hc' : (!(counting == "ziczac") && counting != "intersection") = false := by
      rcases hc with rfl | rfl <;> decide
    rw [hc'] at hD hD'
    simp only [Bool.false_eq_true, if_false, toFinset_map] at hD hD'
    rw [φ.layers v v' it it' hs, φ.distWhile v v' it it' hC hac _ _ _ _ _ _ hs (φ.layers_sub v v' it hs (-1) (some 1))] at hD'
    have m1 := distWhile_mono it h C ac _ _ _ (h'.next + (ac.map f).length + 1) _ _ _ _ hD
    have m2 := distWhile_mono it h C ac _ _ _ (h.next + ac.length + 1) _ _ _ _ hD'
    rw [Nat.add_comm] at m2
    rw [m1] at m2
    exact m2.symm
  · push Not at hc
    rw [(C40_distanceMatrix it v C ac counting r).2 hc.1 hc.2, (C40_distanceMatrix it' v' (C.image f) (ac.map f) counting r).2 hc.1 hc.2]

omit v v' in
theorem idxOf {l : List EId} (hl : ∀ x ∈ l, x ∈ U) {a : EId} (ha : a ∈ U) : (l.map f).idxOf (f a) = l.idxOf a := by
  induction l with
  | nil => rfl
  | cons x xs ih =>
    rw [List.map_cons, List.idxOf_cons, List.idxOf_cons, ih (fun y hy => hl y (by simp [hy]))]
    by_cases hx : x = a
    · subst hx; simp
    · have : f x ≠ f a := fun he => hx (φ.inj _ (hl x (by simp)) _ ha he)
      have e1 : (x == a) = false := by simp [hx]
      have e2 : (f x == f a) = false := by simpa using this
      rw [e1, e2]

omit v v' in
theorem mem_map {l : List EId} (hl : ∀ x ∈ l, x ∈ U) {a : EId} (ha : a ∈ U) : f a ∈ l.map f ↔ a ∈ l := by
  rw [List.mem_map]
  constructor
  · rintro ⟨x, hx, he⟩
    rw [← φ.inj _ (hl x hx) _ ha he]; exact hx
  · exact fun hx => ⟨a, hx, rfl⟩

theorem antipaths (it it' : Iter) {C : Finset EId} (hC : C ⊆ U) (depth : ℕ) {a b : EId} (ha : a ∈ U) (hb : b ∈ U) {l : List EId} (hl : ∀ x ∈ l, x ∈ U) (D : Option DMat) :
    h'.antipaths it' (C.image f) depth (f a) (f b) (l.map f) D = (h.antipaths it C depth a b l D).map (List.map (List.map f)) := by
  unfold Heap.antipaths
  rw [φ.distanceMatrix v v' it it' hC hl, φ.isSpacelikeTo v v' ha hb, φ.idxOf hl ha, φ.idxOf hl hb, List.length_map]
  simp only [φ.eq_iff v v' ha hb, φ.mem_map hl ha, φ.mem_map hl hb]
  split
  · rfl
  · split
    · rfl
    · next hab =>
      push Not at hab
      have key : ∀ D1 : DMat, (if D1 (l.idxOf a) (l.idxOf b) = -1 then Except.ok []
          else match antipathsFind D1 l.length (l.idxOf b) depth (l.idxOf a) with
            | .error x => .error x
            | .ok ps => .ok (ps.map (fun p => p.map (fun i => (l.map f).getD i 0)))) =
          Except.map (List.map (List.map f)) (if D1 (l.idxOf a) (l.idxOf b) = -1 then Except.ok []
          else match antipathsFind D1 l.length (l.idxOf b) depth (l.idxOf a) with
            | .error x => .error x
            | .ok ps => .ok (ps.map (fun p => p.map (fun i => l.getD i 0)))) := by
        intro D1
        split
        · rfl
        · cases hq : antipathsFind D1 l.length (l.idxOf b) depth (l.idxOf a) with
          | error x => rfl
          | ok ps =>
            simp only [Except.map, List.map_map, Except.ok.injEq]
            refine List.map_congr_left fun p hp => ?_
            have hlt := (antipathsFind_sound D1 l.length _ (List.idxOf_lt_length_iff.2 hab.2.2) depth _ ps (List.idxOf_lt_length_iff.2 hab.2.1) hq p hp).2.2.2
            simp only [Function.comp, List.map_map]
            refine List.map_congr_left fun i hi => ?_
            have := hlt i hi
            simp [List.getD_eq_getElem?_getD, this]
      cases D with
      | some D => exact key D
      | none =>
        dsimp only
        cases h.distanceMatrix it C l "ziczac" true with
        | error x => rfl
        | ok D => exact key D

/-! ## Components -/

theorem connected {s : Finset EId} (hs : s ⊆ U) {a b : EId} (hab : Connected h.Lt s a b) : Connected h'.Lt (s.image f) (f a) (f b) := by
  unfold Connected at hab ⊢
  induction hab with
  | refl => exact .refl
  | tail _ st ih =>
    obtain ⟨h1, h2, h3⟩ := st
    exact ih.tail ⟨Finset.mem_image_of_mem f h1, Finset.mem_image_of_mem f h2, (φ.related (hs h1) (hs h2)).2 h3⟩

theorem components {s : Finset EId} (hs : s ⊆ U) {ls : List (Finset EId)} (sp : ComponentsSpec h.Lt s ls) : ComponentsSpec h'.Lt (s.image f) (ls.map (fun l => l.image f)) := by
  have hls : ∀ l ∈ ls, l ⊆ U := fun l hl x hx => hs ((sp.cover x).2 ⟨l, hl, hx⟩)
  refine ⟨?_, fun x => ?_, ?_, ?_, ?_⟩
  · intro l0 hl0
    obtain ⟨l, hl, rfl⟩ := List.mem_map.1 hl0
    exact (sp.nonempty l hl).image f
  · rw [Finset.mem_image]
    constructor
    · rintro ⟨y, hy, rfl⟩
      obtain ⟨l, hl, hyl⟩ := (sp.cover y).1 hy
      exact ⟨l.image f, List.mem_map_of_mem hl, Finset.mem_image_of_mem f hyl⟩
    · rintro ⟨l0, hl0, hx⟩
      obtain ⟨l, hl, rfl⟩ := List.mem_map.1 hl0
      obtain ⟨y, hy, rfl⟩ := Finset.mem_image.1 hx
      exact ⟨y, (sp.cover y).2 ⟨l, hl, hy⟩, rfl⟩
  · rw [List.pairwise_map]
    refine sp.disjoint.imp_of_mem fun {l l'} hl hl' hd => ?_
    rw [Finset.disjoint_left] at hd ⊢
    intro x hx hx'
    obtain ⟨y, hy, rfl⟩ := Finset.mem_image.1 hx
    exact hd hy ((φ.mem_iff (hls l hl hy) (hls l' hl')).1 hx')
  · rw [List.pairwise_map]
    refine sp.unrelated.imp_of_mem fun {l l'} hl hl' hd => ?_
    intro x hx x' hx' hr
    obtain ⟨y, hy, rfl⟩ := Finset.mem_image.1 hx
    obtain ⟨y', hy', rfl⟩ := Finset.mem_image.1 hx'
    exact hd y hy y' hy' ((φ.related (hls l hl hy) (hls l' hl' hy')).1 hr)
  · intro l0 hl0 x hx x' hx'
    obtain ⟨l, hl, rfl⟩ := List.mem_map.1 hl0
    obtain ⟨y, hy, rfl⟩ := Finset.mem_image.1 hx
    obtain ⟨y', hy', rfl⟩ := Finset.mem_image.1 hx'
    exact φ.connected v v' (hls l hl) (sp.connected l hl y hy y' hy')

/-! ## Paths and ranks -/

omit v v' in
theorem covers {a b : EId} (ha : a ∈ U) (hb : b ∈ U) : Covers h'.Lt (f a) (f b) ↔ Covers h.Lt a b := by
  unfold Covers
  rw [φ.iff a ha b hb]
  refine and_congr_right fun _ => ⟨fun hx c hc => ?_, fun hx c hc => ?_⟩
  · have hcU := φ.closed a ha c (.inl hc.1)
    exact hx (f c) ⟨(φ.iff a ha c hcU).1 hc.1, (φ.iff c hcU b hb).1 hc.2⟩
  · have hcU := φ.closed' (f a) (Finset.mem_image_of_mem f ha) c (.inl hc.1)
    obtain ⟨d, hd, rfl⟩ := Finset.mem_image.1 hcU
    exact hx d ⟨(φ.iff a ha d hd).2 hc.1, (φ.iff d hd b hb).2 hc.2⟩

omit v v' in
theorem path_sub {a b : EId} (ha : a ∈ U) : ∀ {p : List EId}, LinkPath h.Lt a b p → ∀ x ∈ p, x ∈ U := by
  intro p hp
  obtain ⟨h1, -, h3⟩ := hp
  induction p generalizing a with
  | nil => simp
  | cons y ys ih =>
    have hy : y = a := by simpa using h1
    subst hy
    intro x hx
    rcases List.mem_cons.1 hx with rfl | hx
    · exact ha
    · cases ys with
      | nil => simp at hx
      | cons z zs =>
        have hz := List.isChain_cons_cons.1 h3
        exact ih (φ.closed _ ha z (.inl hz.1.1)) rfl hz.2 x hx

omit v v' in
theorem path {a b : EId} (ha : a ∈ U) {p : List EId} (hp : LinkPath h.Lt a b p) : LinkPath h'.Lt (f a) (f b) (p.map f) := by
  have hs := φ.path_sub ha hp
  obtain ⟨h1, h2, h3⟩ := hp
  refine ⟨by simp [h1], by simp [h2], ?_⟩
  rw [List.isChain_map]
  exact h3.imp_of_mem_imp (fun x y hx hy hxy => (φ.covers (hs x hx) (hs y hy)).2 hxy)

end

end CausalIso

end Causets
