import Verif.Model.Colors
import Mathlib.Data.List.Basic

/-! # C56, C73 — colour schemes (colorschemes.py) -/

namespace Causets

/-- **Specification.** The colour a value stands for in a scheme: 'cs:x' stands for the colour `x` of the scheme (if there is one), anything else for itself. -/
def ColorOf (CS : Scheme) (v c : String) : Prop :=
  (∃ x, v = "cs:" ++ x ∧ (x, c) ∈ CS) ∨ ((¬ ∃ x, v = "cs:" ++ x) ∧ c = v)

/-- **Specification.** The value names a colour that the scheme does not have. -/
def UnknownColor (CS : Scheme) (v : String) : Prop := ∃ x, v = "cs:" ++ x ∧ ∀ c, (x, c) ∉ CS

/-- **Specification.** A dictionary without repeated keys. -/
def IsDict {β : Type} (d : List (String × β)) : Prop := (d.map Prod.fst).Nodup

theorem lookup_iff {β : Type} : ∀ (d : List (String × β)), IsDict d → ∀ k v, d.lookup k = some v ↔ (k, v) ∈ d
  | [], _, k, v => by simp
  | (k', v') :: d, h, k, v => by
    have h2 : IsDict d := by unfold IsDict at h ⊢; simp only [List.map_cons, List.nodup_cons] at h; exact h.2
    have h1 : k' ∉ d.map Prod.fst := by unfold IsDict at h; simp only [List.map_cons, List.nodup_cons] at h; exact h.1
    rw [List.lookup_cons]
    by_cases e : k = k'
    · subst e
      simp only [beq_self_eq_true]
      constructor
      · intro h'; injection h' with h'; subst h'; simp
      · intro h'
        simp only [List.mem_cons, Prod.mk.injEq, true_and] at h'
        rcases h' with rfl | h'
        · rfl
        · exact absurd (List.mem_map_of_mem h') h1
    · have : (k == k') = false := by simpa using e
      rw [this]
      dsimp only
      rw [lookup_iff d h2]
      simp [e]

theorem lookup_none {β : Type} (d : List (String × β)) (k : String) : d.lookup k = none ↔ ∀ v, (k, v) ∉ d := by
  induction d with
  | nil => simp
  | cons p d ih =>
    obtain ⟨k', v'⟩ := p
    rw [List.lookup_cons]
    by_cases e : k = k'
    · subst e
      simp only [beq_self_eq_true]
      simp only [reduceCtorEq, false_iff]
      intro h; exact h v' (by simp)
    · have : (k == k') = false := by simpa using e
      rw [this]
      dsimp only
      rw [ih]
      simp [e]

theorem startsCs_iff (v : String) : startsCs v = true ↔ ∃ x, v = "cs:" ++ x := by
  unfold startsCs
  simp only [beq_iff_eq]
  constructor
  · intro h
    refine ⟨String.ofList (v.toList.drop 3), ?_⟩
    apply String.toList_inj.1
    rw [String.toList_append, String.toList_ofList (l := List.drop 3 v.toList)]
    conv_lhs => rw [← List.take_append_drop 3 v.toList, h]
    rfl
  · rintro ⟨x, rfl⟩
    rw [String.toList_append]
    rfl

theorem dropCs_append (x : String) : dropCs ("cs:" ++ x) = x := by
  unfold dropCs
  apply String.toList_inj.1
  rw [String.toList_ofList, String.toList_append]
  rfl

theorem colorSchemes_isDict : IsDict colorSchemes ∧ ∀ p ∈ colorSchemes, IsDict p.2 := by
  unfold IsDict
  decide

/-- no colour of a scheme refers to another colour -/
theorem colorSchemes_plain : ∀ p ∈ colorSchemes, ∀ q ∈ p.2, startsCs q.2 = false := by decide

theorem schemeGet_spec (CS : Scheme) (hCS : IsDict CS) (x : String) :
    (∀ c, schemeGet CS x = .ok c ↔ (x, c) ∈ CS) ∧ (schemeGet CS x = .error .keyError ↔ ∀ c, (x, c) ∉ CS) := by
  unfold schemeGet
  constructor
  · intro c
    rw [← lookup_iff CS hCS]
    cases CS.lookup x <;> simp
  · rw [← lookup_none]
    cases CS.lookup x <;> simp

/-- **Specification.** The scheme that the call uses: the global one, or the one of the given name. -/
def Chosen (g : Scheme) : Option String → Scheme → Prop
  | none, CS => CS = g
  | some n, CS => (n, CS) ∈ colorSchemes

theorem chosen_spec (g : Scheme) (n : Option String) :
    (∀ CS, chosenScheme g n = .ok CS ↔ Chosen g n CS) ∧ (chosenScheme g n = .error .valueError ↔ ∀ CS, ¬ Chosen g n CS) := by
  cases n with
  | none =>
    refine ⟨fun CS => ?_, ?_⟩
    · simp only [chosenScheme, Chosen, Except.ok.injEq]; exact eq_comm
    · simp [chosenScheme, Chosen]
  | some n =>
    unfold chosenScheme pickColorScheme Chosen
    refine ⟨fun CS => ?_, ?_⟩
    · dsimp only
      rw [← lookup_iff colorSchemes colorSchemes_isDict.1]
      cases colorSchemes.lookup n <;> simp
    · dsimp only
      rw [← lookup_none]
      cases colorSchemes.lookup n <;> simp

/-- **C56.** `getColor(color, schemeName)`: ValueError exactly for an unknown scheme; otherwise the colour the value stands for, or KeyError exactly if the scheme does not have it. -/
theorem C56_getColor (g : Scheme) (hg : IsDict g) (v : String) (n : Option String) :
    ((∀ CS, ¬ Chosen g n CS) → getColor g v n = .error .valueError) ∧
    (∀ CS, Chosen g n CS → (∀ c, getColor g v n = .ok c ↔ ColorOf CS v c) ∧ (getColor g v n = .error .keyError ↔ UnknownColor CS v)) := by
  obtain ⟨h1, h2⟩ := chosen_spec g n
  unfold getColor
  refine ⟨fun h => by rw [h2.2 h], fun CS hC => ?_⟩
  have hd : IsDict CS := by
    cases n with
    | none => rw [show CS = g from hC]; exact hg
    | some n => exact colorSchemes_isDict.2 _ hC
  rw [(h1 CS).2 hC]
  dsimp only
  by_cases hv : startsCs v = true
  · rw [if_pos hv]
    obtain ⟨x, rfl⟩ := (startsCs_iff v).1 hv
    rw [dropCs_append]
    obtain ⟨s1, s2⟩ := schemeGet_spec CS hd x
    have inj : ∀ y, "cs:" ++ x = "cs:" ++ y ↔ y = x := fun y => by
      constructor
      · intro h
        have := congrArg dropCs h
        rw [dropCs_append, dropCs_append] at this
        exact this.symm
      · rintro rfl; rfl
    refine ⟨fun c => ?_, ?_⟩
    · rw [s1, ColorOf]
      simp only [inj, exists_eq_left]
      simp
    · rw [s2, UnknownColor]
      simp only [inj, exists_eq_left]
  · rw [if_neg hv]
    rw [startsCs_iff] at hv
    refine ⟨fun c => ?_, ?_⟩
    · rw [ColorOf]
      push Not at hv
      simp only [Except.ok.injEq]
      constructor
      · rintro rfl; exact Or.inr ⟨by push Not; exact hv, rfl⟩
      · rintro (⟨x, h, -⟩ | ⟨-, h⟩)
        · exact absurd h (hv x)
        · exact h.symm
    · simp only [reduceCtorEq, false_iff]
      rintro ⟨x, h, -⟩
      exact hv ⟨x, h⟩

/-- **Specification.** The converted value. -/
def Converted {β : Type} (CS : Scheme) : PyVal β → PyVal β → Prop
  | .str v, .str c => ColorOf CS v c
  | .other x, .other y => x = y
  | _, _ => False

theorem step_cases (CS : Scheme) (hd : IsDict CS) (v : String) :
    (startsCs v = true ∧ ∃ c, schemeGet CS (dropCs v) = .ok c ∧ ColorOf CS v c) ∨
    (startsCs v = true ∧ schemeGet CS (dropCs v) = .error .keyError ∧ UnknownColor CS v) ∨ (startsCs v = false ∧ ColorOf CS v v) := by
  by_cases hv : startsCs v = true
  · obtain ⟨x, rfl⟩ := (startsCs_iff v).1 hv
    rw [dropCs_append]
    obtain ⟨s1, s2⟩ := schemeGet_spec CS hd x
    rcases h : schemeGet CS x with e | c
    · refine Or.inr (Or.inl ⟨hv, ?_, ?_⟩)
      · unfold schemeGet at h
        split at h <;> simp_all
      · refine ⟨x, rfl, s2.1 ?_⟩
        unfold schemeGet at h ⊢
        split at h <;> simp_all
    · exact Or.inl ⟨hv, c, rfl, Or.inl ⟨x, rfl, (s1 c).1 h⟩⟩
  · refine Or.inr (Or.inr ⟨by simpa using hv, Or.inr ⟨?_, rfl⟩⟩)
    rw [startsCs_iff] at hv; exact hv

theorem UnknownColor.not_colorOf {CS : Scheme} {v c : String} (h : UnknownColor CS v) : ¬ ColorOf CS v c := by
  obtain ⟨x, rfl, hx⟩ := h
  rintro (⟨y, hy, hm⟩ | ⟨hn, -⟩)
  · have := congrArg dropCs hy
    rw [dropCs_append, dropCs_append] at this
    subst this
    exact hx c hm
  · exact hn ⟨x, rfl⟩

theorem ColorOf.unique {CS : Scheme} (hd : IsDict CS) {v c c' : String} (h : ColorOf CS v c) (h' : ColorOf CS v c') : c = c' := by
  rcases h with ⟨x, rfl, hm⟩ | ⟨hn, rfl⟩
  · rcases h' with ⟨y, hy, hm'⟩ | ⟨hn, -⟩
    · have := congrArg dropCs hy
      rw [dropCs_append, dropCs_append] at this
      subst this
      have a := (lookup_iff CS hd _ _).2 hm
      have b := (lookup_iff CS hd _ _).2 hm'
      rw [a] at b
      injection b
    · exact absurd ⟨x, rfl⟩ hn
  · rcases h' with ⟨y, hy, -⟩ | ⟨-, h'⟩
    · exact absurd ⟨y, hy⟩ hn
    · exact h'.symm

section
variable {β : Type}

theorem convertDictLoop_spec (CS : Scheme) (hd : IsDict CS) : ∀ d : List (String × PyVal β),
    ((∃ k v, (k, PyVal.str v) ∈ d ∧ UnknownColor CS v) → (convertDictLoop CS d).1 = .error .keyError) ∧
    ((¬ ∃ k v, (k, PyVal.str v) ∈ d ∧ UnknownColor CS v) → (convertDictLoop CS d).1 = .ok () ∧
      List.Forall₂ (fun p q => p.1 = q.1 ∧ Converted CS p.2 q.2) d (convertDictLoop CS d).2) ∧
    (convertDictLoop CS d).2.map Prod.fst = d.map Prod.fst
  | [] => by simp [convertDictLoop]
  | (k, .other x) :: d => by
    obtain ⟨h1, h2, h3⟩ := convertDictLoop_spec CS hd d
    have e : (∃ k' v, (k', PyVal.str v) ∈ (k, PyVal.other x) :: d ∧ UnknownColor CS v) ↔ ∃ k' v, (k', PyVal.str v) ∈ d ∧ UnknownColor CS v := by simp
    rw [e]
    unfold convertDictLoop
    refine ⟨h1, fun h => ⟨(h2 h).1, ?_⟩, by simp [h3]⟩
    exact List.Forall₂.cons ⟨rfl, rfl⟩ (h2 h).2
  | (k, .str v) :: d => by
    obtain ⟨h1, h2, h3⟩ := convertDictLoop_spec CS hd d
    have e : (∃ k' v', (k', PyVal.str v') ∈ (k, PyVal.str v) :: d ∧ UnknownColor CS v') ↔
        UnknownColor CS v ∨ ∃ k' v', (k', PyVal.str v') ∈ d ∧ UnknownColor CS v' := by
      constructor
      · rintro ⟨k', v', hm, hu⟩
        rcases List.mem_cons.1 hm with hm | hm
        · injection hm with _ hm; injection hm with hm; subst hm; exact Or.inl hu
        · exact Or.inr ⟨k', v', hm, hu⟩
      · rintro (hu | ⟨k', v', hm, hu⟩)
        · exact ⟨k, v, by simp, hu⟩
        · exact ⟨k', v', by simp [hm], hu⟩
    rw [e]
    unfold convertDictLoop
    rcases step_cases CS hd v with ⟨hs, c, hc, hcol⟩ | ⟨hs, hc, hu⟩ | ⟨hs, hcol⟩
    · have hnu : ¬ UnknownColor CS v := fun hu => hu.not_colorOf hcol
      rw [if_pos hs, hc]
      dsimp only
      refine ⟨?_, ?_, by simp [h3]⟩
      · rintro (hu | hu)
        · exact absurd hu hnu
        · exact h1 hu
      · intro h
        push Not at h
        have := h2 (by push Not; exact h.2)
        exact ⟨this.1, List.Forall₂.cons ⟨rfl, hcol⟩ this.2⟩
    · rw [if_pos hs, hc]
      exact ⟨fun _ => rfl, fun h => absurd (Or.inl hu) h, rfl⟩
    · have hnu : ¬ UnknownColor CS v := fun hu => hu.not_colorOf hcol
      rw [if_neg (by simp [hs])]
      dsimp only
      refine ⟨?_, ?_, by simp [h3]⟩
      · rintro (hu | hu)
        · exact absurd hu hnu
        · exact h1 hu
      · intro h
        push Not at h
        have := h2 (by push Not; exact h.2)
        exact ⟨this.1, List.Forall₂.cons ⟨rfl, hcol⟩ this.2⟩

/-- **C56.** `convertColorsInDict(d, schemeName)`: ValueError and an unchanged dictionary exactly for an unknown scheme; otherwise KeyError exactly if some value names a colour that the scheme does not have; otherwise the
dictionary keeps its keys in order, and every value is replaced by the colour it stands for. -/
theorem C56_dict (g : Scheme) (hg : IsDict g) (d : List (String × PyVal β)) (n : Option String) :
    ((∀ CS, ¬ Chosen g n CS) → convertColorsInDict g d n = (.error .valueError, d)) ∧
    (∀ CS, Chosen g n CS →
      ((∃ k v, (k, PyVal.str v) ∈ d ∧ UnknownColor CS v) → (convertColorsInDict g d n).1 = .error .keyError) ∧
      ((¬ ∃ k v, (k, PyVal.str v) ∈ d ∧ UnknownColor CS v) → (convertColorsInDict g d n).1 = .ok () ∧
        List.Forall₂ (fun p q => p.1 = q.1 ∧ Converted CS p.2 q.2) d (convertColorsInDict g d n).2)) ∧
    (convertColorsInDict g d n).2.map Prod.fst = d.map Prod.fst := by
  obtain ⟨h1, h2⟩ := chosen_spec g n
  have hd : ∀ CS, Chosen g n CS → IsDict CS := fun CS hC => by
    cases n with
    | none => rw [show CS = g from hC]; exact hg
    | some n => exact colorSchemes_isDict.2 _ hC
  unfold convertColorsInDict
  refine ⟨fun h => by rw [h2.2 h], fun CS hC => ?_, ?_⟩
  · rw [(h1 CS).2 hC]
    obtain ⟨k1, k2, k3⟩ := convertDictLoop_spec (β := β) CS (hd CS hC) d
    exact ⟨k1, k2⟩
  · rcases h : chosenScheme g n with e | CS
    · rfl
    · exact (convertDictLoop_spec (β := β) CS (hd CS ((h1 CS).1 h)) d).2.2

/-- **C56, after a KeyError.** If `convertColorsInDict` raises KeyError, the entries before the first unknown colour are converted, this entry and all later ones are as they were. -/
theorem C56_dict_failure (g : Scheme) (hg : IsDict g) (d : List (String × PyVal β)) (n : Option String) (CS : Scheme) (hC : Chosen g n CS)
    (he : (convertColorsInDict g d n).1 = .error .keyError) :
    ∃ pre pre' k v post, d = pre ++ (k, PyVal.str v) :: post ∧ UnknownColor CS v ∧ (¬ ∃ k' v', (k', PyVal.str v') ∈ pre ∧ UnknownColor CS v') ∧
      List.Forall₂ (fun p q => p.1 = q.1 ∧ Converted CS p.2 q.2) pre pre' ∧ (convertColorsInDict g d n).2 = pre' ++ (k, PyVal.str v) :: post := by
  have hd : IsDict CS := by
    cases n with
    | none => rw [show CS = g from hC]; exact hg
    | some n => exact colorSchemes_isDict.2 _ hC
  have key : ∀ d : List (String × PyVal β), (convertDictLoop CS d).1 = .error .keyError → ∃ pre pre' k v post, d = pre ++ (k, PyVal.str v) :: post ∧ UnknownColor CS v ∧
      (¬ ∃ k' v', (k', PyVal.str v') ∈ pre ∧ UnknownColor CS v') ∧
      List.Forall₂ (fun p q => p.1 = q.1 ∧ Converted CS p.2 q.2) pre pre' ∧ (convertDictLoop CS d).2 = pre' ++ (k, PyVal.str v) :: post := by
    intro d
    induction d with
    | nil => intro h; simp [convertDictLoop] at h
    | cons a d ih =>
      obtain ⟨k, v⟩ := a
      cases v with
      | other x =>
        intro h
        obtain ⟨pre, pre', k', v', post, e1, hu, hn, hf, e2⟩ := ih h
        refine ⟨(k, .other x) :: pre, (k, .other x) :: pre', k', v', post, by rw [e1]; rfl, hu, ?_, List.Forall₂.cons ⟨rfl, rfl⟩ hf, ?_⟩
        · rintro ⟨k2, v2, hm, hu2⟩
          exact hn ⟨k2, v2, by simpa using hm, hu2⟩
        · unfold convertDictLoop; dsimp only; rw [e2]; rfl
      | str v =>
        intro h
        have cons : ∀ c, ColorOf CS v c → convertDictLoop CS ((k, .str v) :: d) = ((convertDictLoop CS d).1, (k, .str c) :: (convertDictLoop CS d).2) →
            ∃ pre pre' k0 v0 post, (k, PyVal.str v) :: d = pre ++ (k0, PyVal.str v0) :: post ∧ UnknownColor CS v0 ∧
              (¬ ∃ k' v', (k', PyVal.str v') ∈ pre ∧ UnknownColor CS v') ∧
              List.Forall₂ (fun p q => p.1 = q.1 ∧ Converted CS p.2 q.2) pre pre' ∧ (convertDictLoop CS ((k, .str v) :: d)).2 = pre' ++ (k0, PyVal.str v0) :: post := by
          intro c hcol heq
          rw [heq] at h
          obtain ⟨pre, pre', k', v', post, e1, hu, hn, hf, e2⟩ := ih h
          refine ⟨(k, .str v) :: pre, (k, .str c) :: pre', k', v', post, by rw [e1]; rfl, hu, ?_, List.Forall₂.cons ⟨rfl, hcol⟩ hf, ?_⟩
          · rintro ⟨k2, v2, hm, hu2⟩
            rcases List.mem_cons.1 hm with hm | hm
            · injection hm with _ hm; injection hm with hm; subst hm; exact hu2.not_colorOf hcol
            · exact hn ⟨k2, v2, hm, hu2⟩
          · rw [heq, e2]; rfl
        rcases step_cases CS hd v with ⟨hs, c, hc, hcol⟩ | ⟨hs, hc, hu⟩ | ⟨hs, hcol⟩
        · exact cons c hcol (by rw [convertDictLoop, if_pos hs, hc])
        · exact ⟨[], [], k, v, d, rfl, hu, by simp, .nil, by rw [convertDictLoop, if_pos hs, hc]; rfl⟩
        · exact cons v hcol (by rw [convertDictLoop, if_neg (by simp [hs])])
  have hch := ((chosen_spec g n).1 CS).2 hC
  unfold convertColorsInDict at he ⊢
  rw [hch] at he ⊢
  exact key d he

theorem convertDictLoop_plain (CS : Scheme) : ∀ d : List (String × PyVal β), (∀ k v, (k, PyVal.str v) ∈ d → startsCs v = false) →
    convertDictLoop CS d = (.ok (), d)
  | [], _ => rfl
  | (k, .other x) :: d, h => by
    rw [convertDictLoop, convertDictLoop_plain CS d (fun k v hm => h k v (by simp [hm]))]
  | (k, .str v) :: d, h => by
    rw [convertDictLoop, convertDictLoop_plain CS d (fun k v hm => h k v (by simp [hm])), if_neg (by simp [h k v (by simp)])]

/-- **C56, idempotence.** Converting a dictionary again with any scheme (of the library, or any other whose colours do not refer to colours) changes nothing and does not raise. -/
theorem C56_idempotent (g g' : Scheme) (hg : IsDict g) (hplain : ∀ q ∈ g, startsCs q.2 = false) (d : List (String × PyVal β)) (n : Option String) (n' : Option String)
    (CS' : Scheme) (hC' : Chosen g' n' CS')
    (ok : (convertColorsInDict g d n).1 = .ok ()) :
    convertColorsInDict g' (convertColorsInDict g d n).2 n' = (.ok (), (convertColorsInDict g d n).2) := by
  obtain ⟨h1, h2⟩ := chosen_spec g n
  have hC : ∃ CS, Chosen g n CS := by
    by_contra h
    push Not at h
    rw [(C56_dict g hg d n).1 h] at ok
    exact absurd ok (by simp)
  obtain ⟨CS, hC⟩ := hC
  have hp : ∀ q ∈ CS, startsCs q.2 = false := by
    cases n with
    | none => rw [show CS = g from hC]; exact hplain
    | some n => exact colorSchemes_plain _ hC
  obtain ⟨k1, k2⟩ := (C56_dict g hg d n).2.1 CS hC
  have hno : ¬ ∃ k v, (k, PyVal.str v) ∈ d ∧ UnknownColor CS v := fun h => by
    rw [k1 h] at ok; exact absurd ok (by simp)
  have hall := (k2 hno).2
  have hnone : ∀ k v, (k, PyVal.str v) ∈ (convertColorsInDict g d n).2 → startsCs v = false := by
    intro k v hm
    generalize (convertColorsInDict g d n).2 = r at hall hm
    clear ok k1 k2 hno
    induction hall with
    | nil => simp at hm
    | @cons p q d' r' hpq _ ih =>
      rcases List.mem_cons.1 hm with hm | hm
      · obtain ⟨kp, vp⟩ := p
        subst hm
        cases vp with
        | other x => exact absurd hpq.2 (by simp [Converted])
        | str w =>
          rcases hpq.2 with ⟨x, -, hx⟩ | ⟨hx, hv⟩
          · exact hp _ hx
          · rw [hv]
            rw [← startsCs_iff] at hx
            simpa using hx
      · exact ih hm
  unfold convertColorsInDict at *
  rw [((chosen_spec g' n').1 CS').2 hC']
  exact convertDictLoop_plain CS' _ hnone

theorem convertListLoop_spec (CS : Scheme) (hd : IsDict CS) : ∀ d : List String,
    ((∃ v ∈ d, UnknownColor CS v) → (convertListLoop CS d).1 = .error .keyError) ∧
    ((¬ ∃ v ∈ d, UnknownColor CS v) → (convertListLoop CS d).1 = .ok () ∧ List.Forall₂ (ColorOf CS) d (convertListLoop CS d).2) ∧
    (convertListLoop CS d).2.length = d.length
  | [] => by simp [convertListLoop]
  | v :: d => by
    obtain ⟨h1, h2, h3⟩ := convertListLoop_spec CS hd d
    simp only [List.mem_cons, exists_eq_or_imp]
    unfold convertListLoop
    rcases step_cases CS hd v with ⟨hs, c, hc, hcol⟩ | ⟨hs, hc, hu⟩ | ⟨hs, hcol⟩
    · have hnu : ¬ UnknownColor CS v := fun hu => hu.not_colorOf hcol
      rw [if_pos hs, hc]
      dsimp only
      refine ⟨fun h => h.elim (fun hu => absurd hu hnu) h1, fun h => ?_, by simp [h3]⟩
      have := h2 (fun h' => h (Or.inr h'))
      exact ⟨this.1, List.Forall₂.cons hcol this.2⟩
    · rw [if_pos hs, hc]
      exact ⟨fun _ => rfl, fun h => absurd (Or.inl hu) h, rfl⟩
    · have hnu : ¬ UnknownColor CS v := fun hu => hu.not_colorOf hcol
      rw [if_neg (by simp [hs])]
      dsimp only
      refine ⟨fun h => h.elim (fun hu => absurd hu hnu) h1, fun h => ?_, by simp [h3]⟩
      have := h2 (fun h' => h (Or.inr h'))
      exact ⟨this.1, List.Forall₂.cons hcol this.2⟩

/-- **C56.** The same for `convertColorsInList`. -/
theorem C56_list (g : Scheme) (hg : IsDict g) (d : List String) (n : Option String) :
    ((∀ CS, ¬ Chosen g n CS) → convertColorsInList g d n = (.error .valueError, d)) ∧
    (∀ CS, Chosen g n CS →
      ((∃ v ∈ d, UnknownColor CS v) → (convertColorsInList g d n).1 = .error .keyError) ∧
      ((¬ ∃ v ∈ d, UnknownColor CS v) → (convertColorsInList g d n).1 = .ok () ∧ List.Forall₂ (ColorOf CS) d (convertColorsInList g d n).2)) ∧
    (convertColorsInList g d n).2.length = d.length := by
  obtain ⟨h1, h2⟩ := chosen_spec g n
  have hd : ∀ CS, Chosen g n CS → IsDict CS := fun CS hC => by
    cases n with
    | none => rw [show CS = g from hC]; exact hg
    | some n => exact colorSchemes_isDict.2 _ hC
  unfold convertColorsInList
  refine ⟨fun h => by rw [h2.2 h], fun CS hC => ?_, ?_⟩
  · rw [(h1 CS).2 hC]
    obtain ⟨k1, k2, k3⟩ := convertListLoop_spec CS (hd CS hC) d
    exact ⟨k1, k2⟩
  · rcases h : chosenScheme g n with e | CS
    · rfl
    · exact (convertListLoop_spec CS (hd CS ((h1 CS).1 h)) d).2.2

end

/-- **Specification.** The global scheme after a sequence of `setGlobalColorScheme` calls (the last one first). -/
def globalAfter : List String → Scheme
  | [] => initialScheme
  | n :: before => (setGlobalColorScheme n (globalAfter before)).2

/-- **C56, histories.** After every sequence of `setGlobalColorScheme` calls, the global scheme is the one of the last call with a supported name, or 'matplotlib'; a call with another name raises ValueError and
changes nothing. -/
theorem C56_global (calls : List String) :
    (∃ n, (n, globalAfter calls) ∈ colorSchemes ∧ (n ∈ calls ∨ (n = "matplotlib" ∧ ∀ m ∈ calls, ∀ s, (m, s) ∉ colorSchemes))) ∧
    (∀ n, ((∃ s, (n, s) ∈ colorSchemes) → (setGlobalColorScheme n (globalAfter calls)).1 = .ok () ∧ (n, (setGlobalColorScheme n (globalAfter calls)).2) ∈ colorSchemes) ∧
      ((∀ s, (n, s) ∉ colorSchemes) → setGlobalColorScheme n (globalAfter calls) = (.error .valueError, globalAfter calls))) := by
  have hset : ∀ n g, ((∃ s, (n, s) ∈ colorSchemes) → (setGlobalColorScheme n g).1 = .ok () ∧ (n, (setGlobalColorScheme n g).2) ∈ colorSchemes) ∧
      ((∀ s, (n, s) ∉ colorSchemes) → setGlobalColorScheme n g = (.error .valueError, g)) := by
    intro n g
    unfold setGlobalColorScheme pickColorScheme
    constructor
    · rintro ⟨s, hs⟩
      rw [(lookup_iff colorSchemes colorSchemes_isDict.1 n s).2 hs]
      exact ⟨rfl, hs⟩
    · intro h
      rw [(lookup_none colorSchemes n).2 h]
  refine ⟨?_, fun n => hset n _⟩
  induction calls with
  | nil =>
    refine ⟨"matplotlib", ?_, Or.inr ⟨rfl, by simp⟩⟩
    decide
  | cons m before ih =>
    obtain ⟨n, hn, hcase⟩ := ih
    by_cases hm : ∃ s, (m, s) ∈ colorSchemes
    · exact ⟨m, ((hset m _).1 hm).2, Or.inl (by simp)⟩
    · push Not at hm
      refine ⟨n, ?_, ?_⟩
      · rw [globalAfter, (hset m _).2 hm]; exact hn
      · rcases hcase with h | ⟨h1, h2⟩
        · exact Or.inl (by simp [h])
        · refine Or.inr ⟨h1, fun m' hm' => ?_⟩
          rcases List.mem_cons.1 hm' with rfl | hm'
          · exact hm
          · exact h2 m' hm'

/-- **C56.** All default colours of the plots are in every scheme, hence in the global scheme after every history: `getColor` never raises for them. -/
theorem C56_defaults (calls : List String) : ∀ p ∈ defaultColors, ∃ c, getColor (globalAfter calls) p.2 none = .ok c := by
  obtain ⟨⟨n, hn, -⟩, -⟩ := C56_global calls
  have key : ∀ s ∈ colorSchemes, ∀ p ∈ defaultColors, (getColor s.2 p.2 none).toOption.isSome = true := by decide
  intro p hp
  have := key _ hn p hp
  rcases h : getColor (globalAfter calls) p.2 none with e | c
  · rw [h] at this; exact absurd this (by simp [Except.toOption])
  · exact ⟨c, rfl⟩

theorem dictSet_spec {β : Type} : ∀ (d : List (String × β)) (k : String) (v : β), IsDict d → IsDict (dictSet k v d) ∧ (∀ k' v', (k', v') ∈ dictSet k v d ↔ (k' = k ∧ v' = v) ∨ (k' ≠ k ∧ (k', v') ∈ d)) ∧
    (∀ x, x ∈ (dictSet k v d).map Prod.fst ↔ x = k ∨ x ∈ d.map Prod.fst) := by
  intro d k v
  induction d with
  | nil =>
    intro _
    refine ⟨by simp [dictSet, IsDict], fun k' v' => by simp [dictSet], fun x => by simp [dictSet]⟩
  | cons p d ih =>
    obtain ⟨k0, v0⟩ := p
    intro hd
    have hd2 : IsDict d := by unfold IsDict at hd ⊢; simp only [List.map_cons, List.nodup_cons] at hd; exact hd.2
    have hd1 : k0 ∉ d.map Prod.fst := by unfold IsDict at hd; simp only [List.map_cons, List.nodup_cons] at hd; exact hd.1
    have hno : ∀ v', (k0, v') ∉ d := fun v' hm => hd1 (List.mem_map_of_mem hm)
    obtain ⟨i1, i2, i3⟩ := ih hd2
    rw [dictSet]
    by_cases e : k0 = k
    · subst e
      rw [if_pos rfl]
      refine ⟨by unfold IsDict at hd ⊢; simpa using hd, fun k' v' => ?_, fun x => by simp⟩
      simp only [List.mem_cons, Prod.mk.injEq]
      constructor
      · rintro (h | h)
        · exact Or.inl h
        · refine Or.inr ⟨?_, Or.inr h⟩
          rintro rfl; exact hno _ h
      · rintro (h | ⟨h1, h | h⟩)
        · exact Or.inl h
        · exact absurd h.1 h1
        · exact Or.inr h
    · rw [if_neg e]
      refine ⟨?_, fun k' v' => ?_, fun x => ?_⟩
      · unfold IsDict
        simp only [List.map_cons, List.nodup_cons]
        exact ⟨fun h => ((i3 k0).1 h).elim e hd1, i1⟩
      · simp only [List.mem_cons, Prod.mk.injEq, i2]
        constructor
        · rintro (⟨rfl, rfl⟩ | h | h)
          · exact Or.inr ⟨e, Or.inl ⟨rfl, rfl⟩⟩
          · exact Or.inl h
          · exact Or.inr ⟨h.1, Or.inr h.2⟩
        · rintro (h | ⟨h1, h | h⟩)
          · exact Or.inr (Or.inl h)
          · exact Or.inl h
          · exact Or.inr (Or.inr ⟨h1, h⟩)
      · simp only [List.map_cons, List.mem_cons, i3]; tauto

theorem dictUpdate_spec {β : Type} : ∀ (e d : List (String × β)), IsDict e → IsDict d → IsDict (dictUpdate d e) ∧
    ∀ k v, (k, v) ∈ dictUpdate d e ↔ (k, v) ∈ e ∨ ((∀ v', (k, v') ∉ e) ∧ (k, v) ∈ d) := by
  intro e
  induction e with
  | nil => intro d _ hd; exact ⟨hd, fun k v => by simp [dictUpdate]⟩
  | cons p e ih =>
    obtain ⟨k0, v0⟩ := p
    intro d he hd
    have he2 : IsDict e := by unfold IsDict at he ⊢; simp only [List.map_cons, List.nodup_cons] at he; exact he.2
    have he1 : k0 ∉ e.map Prod.fst := by unfold IsDict at he; simp only [List.map_cons, List.nodup_cons] at he; exact he.1
    obtain ⟨s1, s2, -⟩ := dictSet_spec d k0 v0 hd
    obtain ⟨j1, j2⟩ := ih (dictSet k0 v0 d) he2 s1
    refine ⟨j1, fun k v => ?_⟩
    have : dictUpdate d ((k0, v0) :: e) = dictUpdate (dictSet k0 v0 d) e := rfl
    rw [this, j2, s2]
    have hno : ∀ v', (k0, v') ∉ e := fun v' hm => he1 (List.mem_map_of_mem hm)
    simp only [List.mem_cons, Prod.mk.injEq, not_or, not_and]
    constructor
    · rintro (h | ⟨h, ⟨rfl, rfl⟩ | ⟨h1, h2⟩⟩)
      · exact Or.inl (Or.inr h)
      · exact Or.inl (Or.inl ⟨rfl, rfl⟩)
      · exact Or.inr ⟨fun v' => ⟨fun h3 => absurd h3 h1, h v'⟩, h2⟩
    · rintro ((⟨rfl, rfl⟩ | h) | ⟨h1, h2⟩)
      · exact Or.inr ⟨hno, Or.inl ⟨rfl, rfl⟩⟩
      · exact Or.inl h
      · refine Or.inr ⟨fun v' => (h1 v').2, Or.inr ⟨?_, h2⟩⟩
        rintro rfl
        exact (h1 v0).1 rfl rfl

/-- **C56.** `setDefaultColors` with an unsupported name raises ValueError and changes neither the scheme nor the default colours; otherwise it sets the scheme and exactly the given colours. -/
theorem C56_setDefaultColors (name : String) (kwargs g defaults : Scheme) (hk : IsDict kwargs) (hd : IsDict defaults) :
    ((∀ s, (name, s) ∉ colorSchemes) → setDefaultColors name kwargs g defaults = (.error .valueError, g, defaults)) ∧
    (∀ s, (name, s) ∈ colorSchemes → ∃ d', setDefaultColors name kwargs g defaults = (.ok (), s, d') ∧ IsDict d' ∧
      ∀ k v, (k, v) ∈ d' ↔ (k, v) ∈ kwargs ∨ ((∀ v', (k, v') ∉ kwargs) ∧ (k, v) ∈ defaults)) := by
  unfold setDefaultColors setGlobalColorScheme pickColorScheme
  constructor
  · intro h
    rw [(lookup_none colorSchemes name).2 h]
  · intro s hs
    rw [(lookup_iff colorSchemes colorSchemes_isDict.1 name s).2 hs]
    obtain ⟨u1, u2⟩ := dictUpdate_spec kwargs defaults hk hd
    exact ⟨_, rfl, u1, u2⟩

/-- **Specification.** A colour in hexadecimal notation. -/
def isHexColor (c : String) : Bool := match c.toList with
  | '#' :: ds => ds.length == 6 && ds.all (fun d => d.isDigit || ('A' ≤ d && d ≤ 'F') || ('a' ≤ d && d ≤ 'f'))
  | _ => false

/-- **C73 (partial).** Every colour of a scheme that starts with '#' is '#' and six hexadecimal digits, except 'lime' of 'ImperialLondon' ... -/
theorem C73_hex_partial : ∀ s ∈ colorSchemes, ∀ p ∈ s.2, p.2.toList.head? = some '#' → isHexColor p.2 = true ∨ (s.1 = "ImperialLondon" ∧ p.1 = "lime") := by decide

/-- **C73, refuted.** ... which contains the letter O twice: `getColor('cs:lime', 'ImperialLondon')` is not a colour. -/
theorem C73_refuted : ∃ c, (∀ g, getColor g "cs:lime" (some "ImperialLondon") = .ok c) ∧ c.toList.head? = some '#' ∧ isHexColor c = false := by
  exact ⟨"#BBCEOO", fun g => rfl, by decide, by decide⟩

/-- A concrete case: a dictionary with two scheme colours and a number in the scheme of York. -/
example : convertColorsInDict initialScheme [("color", .str "cs:core"), ("alpha", .other (1 : ℕ)), ("edge", .str "none")] (some "UniYork") =
    (.ok (), [("color", .str "#00627D"), ("alpha", .other 1), ("edge", .str "none")]) := rfl

end Causets
