import Verif.Model.Repr
import Verif.Lemmas.Queries
import Verif.Lemmas.Iso
import Verif.Props.Sorting
import Verif.Props.Simplex

/-!
# C114: printing events and causets
-/

namespace Causets

open Heap

/-! ## Vocabulary -/

/-- the arguments of the call that `repr(e)` shows: the strings of the events of the past links `ps`, the text of the label (if it has one that counts as
true), the text of the coordinates (if it has any) -/
def shownArgs (ps : List String) (l c : Option String) : List String :=
  (if ps = [] then [] else ["past={" ++ ", ".intercalate ps ++ "}"]) ++ l.toList.map ("label=" ++ ·) ++ c.toList.map ("coordinates=" ++ ·)

/-- how a label is shown: integers other than 0 as they are, strings that are not empty between quotes, and nothing else -/
def shownLabel : Option Label → Option String
  | some (.int z) => if z = 0 then none else some (toString z)
  | some (.str s) => if s = "" then none else some ("'" ++ s ++ "'")
  | none => none

/-- the text of a list of numbers: it ends with its only closing bracket -/
def CoordText (s : String) : Prop := ∃ t : List Char, s.toList = '[' :: t ++ [']'] ∧ ']' ∉ t

/-- a label whose text can be read back: an integer other than zero, or a string that is not empty and contains no quote -/
def Label.Plain : Label → Prop
  | .int z => z ≠ 0
  | .str s => s ≠ "" ∧ '\'' ∉ s.toList

/-- the events of `C` have different plain labels -/
structure PlainLabels (h : Heap) (C : Finset EId) : Prop where
  plain : ∀ e ∈ C, ∃ l : Label, l.Plain ∧ h.label e = some l
  inj : ∀ a ∈ C, ∀ b ∈ C, h.label a = h.label b → a = b

/-! ## Integers in text -/

theorem int_toList (z : ℤ) : (toString z).toList = (if z < 0 then ['-'] else []) ++ Nat.toDigits 10 z.natAbs := by
  cases z with
  | ofNat n => 
    have : (toString (Int.ofNat n)) = Nat.repr n := rfl
    rw [this, Nat.toList_repr]; simp
  | negSucc n =>
    have : (toString (Int.negSucc n)) = "-" ++ Nat.repr (n + 1) := rfl
    rw [this, String.toList_append, Nat.toList_repr]
    simp [Int.negSucc_lt_zero]

/-- a character that can occur in the text of an integer -/
def intChar (c : Char) : Bool := c == '-' || c.isDigit

theorem int_chars (z : ℤ) : ∀ c ∈ (toString z).toList, intChar c = true := by
  intro c hc
  rw [int_toList, List.mem_append] at hc
  rcases hc with hc | hc
  · split at hc
    · simp at hc; subst hc; rfl
    · simp at hc
  · simp [intChar, Nat.isDigit_of_mem_toDigits (by decide) (by decide) hc]

theorem toDigits_inj' {a b : ℕ} (h : Nat.toDigits 10 a = Nat.toDigits 10 b) : a = b := by
  rw [← Nat.ofDigitChars_toDigits (b := 10) (n := a) (by decide) (by decide), h,
    Nat.ofDigitChars_toDigits (by decide) (by decide)]

theorem int_text_inj {a b : ℤ} (h : (toString a).toList = (toString b).toList) : a = b := by
  rw [int_toList, int_toList] at h
  have hno : ∀ n, Nat.toDigits 10 n ≠ [] ∧ ∀ t, Nat.toDigits 10 n ≠ '-' :: t := by
    intro n
    refine ⟨?_, fun t ht => ?_⟩
    · intro h0
      have h1 := Nat.ofDigitChars_toDigits (b := 10) (n := n) (by decide) (by decide)
      have : n = 0 := by rw [h0] at h1; simpa using h1.symm
      subst this; simp at h0
    · have := Nat.isDigit_of_mem_toDigits (b := 10) (n := n) (c := '-') (by decide) (by decide) (by rw [ht]; simp)
      exact absurd this (by decide)
  by_cases ha : a < 0 <;> by_cases hb : b < 0 <;> simp only [ha, hb, if_true, if_false, List.nil_append, List.cons_append, List.cons.injEq, true_and] at h
  · have := toDigits_inj' h; omega
  · exact absurd h.symm ((hno _).2 _)
  · exact absurd h ((hno _).2 _)
  · have := toDigits_inj' h; omega

/-- two texts that begin with characters of one kind, followed by another kind, split in the same way -/
theorem prefix_split (p : Char → Bool) : ∀ (a b s t : List Char), (∀ c ∈ a, p c = true) → (∀ c ∈ b, p c = true) →
    (∀ c, s.head? = some c → p c = false) → (∀ c, t.head? = some c → p c = false) → a ++ s = b ++ t → a = b ∧ s = t
  | [], [], s, t, _, _, _, _, h => ⟨rfl, h⟩
  | [], d :: b, s, t, _, hb, hs, _, h => by
    have : s.head? = some d := by rw [List.nil_append] at h; rw [h]; rfl
    have h1 := hs d this
    rw [hb d (by simp)] at h1; cases h1
  | c :: a, [], s, t, ha, _, _, ht, h => by
    have : t.head? = some c := by rw [List.nil_append] at h; rw [← h]; rfl
    have h1 := ht c this
    rw [ha c (by simp)] at h1; cases h1
  | c :: a, d :: b, s, t, ha, hb, hs, ht, h => by
    simp only [List.cons_append, List.cons.injEq] at h
    obtain ⟨e1, e2⟩ := prefix_split p a b s t (fun x hx => ha x (by simp [hx])) (fun x hx => hb x (by simp [hx])) hs ht h.2
    exact ⟨by rw [h.1, e1], e2⟩

theorem int_split {a b : ℤ} {c d : Char} {s t : List Char} (hc : intChar c = false) (hd : intChar d = false)
    (h : (toString a).toList ++ c :: s = (toString b).toList ++ d :: t) : a = b ∧ c :: s = d :: t := by
  obtain ⟨h1, h2⟩ := prefix_split intChar _ _ _ _ (int_chars a) (int_chars b) (by simp; exact hc) (by simp; exact hd) h
  exact ⟨int_text_inj h1, h2⟩

theorem label_split {a b : Label} {c d : Char} {s t : List Char} (ha : a.Plain) (hb : b.Plain) (hc : intChar c = false) (hd : intChar d = false)
    (h : a.text.toList ++ c :: s = b.text.toList ++ d :: t) : a = b ∧ c :: s = d :: t := by
  have hmix : ∀ (z : ℤ) (r s t : List Char) (c : Char), intChar c = false → (toString z).toList ++ c :: s ≠ '\'' :: r ++ t := by
    intro z r s t c hc hz
    cases hz' : (toString z).toList with
    | nil =>
      have h0 := int_toList z
      rw [hz'] at h0
      have h1 := Nat.ofDigitChars_toDigits (b := 10) (n := z.natAbs) (by decide) (by decide)
      have h2 : Nat.toDigits 10 z.natAbs = [] := by
        have := h0.symm
        simp only [List.append_eq_nil_iff] at this
        exact this.2
      have h3 : z.natAbs = 0 := by rw [h2] at h1; simpa using h1.symm
      rw [h3] at h2; simp at h2
    | cons x l =>
      have h1 := int_chars z x (by rw [hz']; simp)
      rw [hz'] at hz
      simp only [List.cons_append, List.cons.injEq] at hz
      rw [hz.1] at h1
      exact absurd h1 (by decide)
  cases a with
  | int z =>
    cases b with
    | int w =>
      obtain ⟨h1, h2⟩ := int_split hc hd h
      exact ⟨by rw [h1], h2⟩
    | str r =>
      simp only [Label.text, String.toList_append, List.append_assoc] at h
      exact absurd h (hmix z [] s _ c hc)
  | str q =>
    cases b with
    | int w =>
      simp only [Label.text, String.toList_append, List.append_assoc] at h
      exact absurd h.symm (hmix w [] t _ d hd)
    | str r =>
      simp only [Label.text, String.toList_append, List.append_assoc, List.append_cancel_left_eq] at h
      obtain ⟨h1, h2⟩ := prefix_split (fun c => c != '\'') q.toList r.toList ('\'' :: c :: s) ('\'' :: d :: t) (fun x hx => by
          simp; rintro rfl; exact ha.2 hx) (fun x hx => by simp; rintro rfl; exact hb.2 hx) (by simp) (by simp) h
      exact ⟨by rw [String.toList_inj.1 h1], by simpa using h2⟩

theorem coord_split {a b : String} {s t : List Char} (ha : CoordText a) (hb : CoordText b)
    (h : a.toList ++ s = b.toList ++ t) : a = b ∧ s = t := by
  obtain ⟨x, hx, nx⟩ := ha
  obtain ⟨y, hy, ny⟩ := hb
  rw [hx, hy] at h
  simp only [List.cons_append, List.append_assoc, List.nil_append, List.cons.injEq, true_and] at h
  obtain ⟨h1, h2⟩ := prefix_split (fun c => c != ']') x y (']' :: s) (']' :: t) (fun c hc => by
      simp; rintro rfl; exact nx hc) (fun c hc => by simp; rintro rfl; exact ny hc) (by simp) (by simp) h
  refine ⟨String.toList_inj.1 (by rw [hx, hy, h1]), ?_⟩
  simpa using h2

/-! ## Lists in text -/

theorem intercalate_cons_cons' (sep a b : List Char) (l : List (List Char)) :
    List.intercalate sep (a :: b :: l) = a ++ sep ++ List.intercalate sep (b :: l) := by
  simp [List.intercalate]

/-- Items separated by ", " and closed by "}" can be told apart if each item can be told apart from what follows it, when that begins with a
comma or a brace. -/
theorem list_split {α : Type} (f : α → List Char) 
    (P : α → Prop)
    (hf : ∀ a b s t, P a → P b → (s.head? = some ',' ∨ s.head? = some '}') → (t.head? = some ',' ∨ t.head? = some '}') → f a ++ s = f b ++ t → a = b ∧ s = t) :
    ∀ (l m : List α) (s t : List Char), (∀ a ∈ l, P a) → (∀ a ∈ m, P a) → l ≠ [] → m ≠ [] →
      List.intercalate [',', ' '] (l.map f) ++ '}' :: s = List.intercalate [',', ' '] (m.map f) ++ '}' :: t → l = m ∧ s = t
  | [], _, _, _, _, _, h, _, _ => absurd rfl h
  | _ :: _, [], _, _, _, _, _, h, _ => absurd rfl h
  | [a], [b], s, t, hl, hm, _, _, h => by
    simp only [List.map_cons, List.map_nil, List.intercalate_singleton] at h
    obtain ⟨rfl, h2⟩ := hf a b _ _ (hl a (by simp)) (hm b (by simp)) (by simp) (by simp) h
    exact ⟨rfl, by simpa using h2⟩
  | [a], b :: c :: m, s, t, hl, hm, _, _, h => by
    simp only [List.map_cons, List.map_nil, List.intercalate_singleton, intercalate_cons_cons', List.append_assoc] at h
    obtain ⟨rfl, h2⟩ := hf a b _ _ (hl a (by simp)) (hm b (by simp)) (by simp) (by simp) h
    simp at h2
  | a :: c :: l, [b], s, t, hl, hm, _, _, h => by
    simp only [List.map_cons, List.map_nil, List.intercalate_singleton, intercalate_cons_cons', List.append_assoc] at h
    obtain ⟨rfl, h2⟩ := hf a b _ _ (hl a (by simp)) (hm b (by simp)) (by simp) (by simp) h
    simp at h2
  | a :: a' :: l, b :: b' :: m, s, t, hl, hm, _, _, h => by
    simp only [List.map_cons, intercalate_cons_cons', List.append_assoc] at h
    obtain ⟨rfl, h2⟩ := hf a b _ _ (hl a (by simp)) (hm b (by simp)) (by simp) (by simp) h
    simp only [List.cons_append, List.nil_append, List.cons.injEq, true_and] at h2
    obtain ⟨h3, h4⟩ := list_split f P hf (a' :: l) (b' :: m) s t (fun x hx => hl x (List.mem_cons_of_mem _ hx)) (fun x hx => hm x (List.mem_cons_of_mem _ hx))
      (by simp) (by simp) (by simpa using h2)
    exact ⟨by rw [h3], h4⟩

/-! ## `str` -/

theorem shownLabel_eq (l : Option Label) : shownLabel l = if Label.truthy l then l.map Label.text else none := by
  match l with
  | none => rfl
  | some (.int z) => by_cases hz : z = 0 <;> simp [shownLabel, Label.truthy, Label.text, hz]
  | some (.str s) => by_cases hz : s = "" <;> simp [shownLabel, Label.truthy, Label.text, hz]

/-- **C114, `str`.** The text of an event shows its label if it has one other than `0` and the empty string, and
different labels are shown differently; all other events are shown as `#Event`, and no event with a label that is shown. -/
theorem C114_str (h : Heap) (a b : EId) :
    eventStr h a = (match shownLabel (h.label a) with | some t => "#" ++ t | none => "#Event") ∧
    (eventStr h a = "#Event" ↔ h.label a = none ∨ h.label a = some (.int 0) ∨ h.label a = some (.str "")) ∧
    (eventStr h a = eventStr h b → eventStr h a ≠ "#Event" → h.label a = h.label b) := by
  have main : eventStr h a = (match shownLabel (h.label a) with | some t => "#" ++ t | none => "#Event") := by
    unfold eventStr
    match h.label a with
    | none => rfl
    | some (.int z) => by_cases hz : z = 0 <;> simp [shownLabel, Label.truthy, Label.text, hz]
    | some (.str s) => by_cases hz : s = "" <;> simp [shownLabel, Label.truthy, Label.text, hz]
  have hfalse : Label.truthy (h.label a) = false ↔ h.label a = none ∨ h.label a = some (.int 0) ∨ h.label a = some (.str "") := by
    match h.label a with
    | none => simp [Label.truthy]
    | some (.int z) => simp [Label.truthy]
    | some (.str s) => simp [Label.truthy]
  refine ⟨main, ?_⟩
  rw [← hfalse]
  have key : ∀ x, (Label.truthy (h.label x) = false ∧ eventStr h x = "#Event") ∨ 
      (Label.truthy (h.label x) = true ∧ ∃ l, h.label x = some l ∧ eventStr h x = "#" ++ l.text) := by
    intro x
    unfold eventStr
    cases hl : h.label x with
    | none => left; exact ⟨rfl, rfl⟩
    | some l =>
      cases ht : Label.truthy (some l) with
      | false => left; simp [ht]
      | true => right; simp [ht]
  have hne : ∀ l : Label, "#" ++ l.text ≠ "#Event" := by
    intro l hl
    have := congrArg String.toList hl
    cases l with
    | int z =>
      simp only [Label.text, String.toList_append] at this
      have h1 : (toString z).toList = ['E', 'v', 'e', 'n', 't'] := by simpa using this
      have := int_chars z 'E' (by rw [h1]; simp)
      exact absurd this (by decide)
    | str s => simp [Label.text, String.toList_append] at this
  have hinj : ∀ l m : Label, "#" ++ l.text = "#" ++ m.text → l = m := by
    intro l m hl
    have := congrArg String.toList hl
    have hmix : ∀ (z : ℤ) (s : String), (toString z).toList ≠ '\'' :: s.toList ++ ['\''] := by
      intro z s hz
      have := int_chars z '\'' (by rw [hz]; simp)
      exact absurd this (by decide)
    cases l with
    | int z =>
      cases m with
      | int w => 
        simp only [Label.text, String.toList_append, List.append_cancel_left_eq] at this
        rw [int_text_inj this]
      | str s => 
        simp only [Label.text, String.toList_append, List.append_cancel_left_eq] at this
        exact absurd this (hmix z s)
    | str s =>
      cases m with
      | int w => 
        simp only [Label.text, String.toList_append, List.append_cancel_left_eq] at this
        exact absurd this.symm (hmix w s)
      | str r => 
        simp only [Label.text, String.toList_append, List.append_cancel_left_eq, List.append_cancel_right_eq] at this
        rw [String.toList_inj.1 this]
  refine ⟨?_, fun hab ht => ?_⟩
  · rcases key a with ⟨k1, k2⟩ | ⟨k1, l, -, k2⟩
    · simp [k1, k2]
    · simp [k1, k2, hne]
  · rcases key a with ⟨-, k2⟩ | ⟨-, l, k1, k2⟩
    · exact absurd k2 ht
    · rw [k1]
      rcases key b with ⟨b1, b2⟩ | ⟨-, m, b1, b2⟩
      · rw [k2, b2] at hab
        exact absurd hab (hne l)
      · rw [k2, b2] at hab
        rw [b1, hinj _ _ hab]

/-- the label `0` and the empty label are shown like no label -/
theorem C114_str_zero_refuted : ∃ (h : Heap) (a b : EId), h.Exists a ∧ h.Exists b ∧ h.label a = some (.int 0) ∧ h.label b = none ∧
    eventStr h a = eventStr h b :=
  ⟨(((Heap.empty.newEvent Iter.asc (some (.int 0)) [] []).2).newEvent Iter.asc none [] []).2, 0, 1, by decide +kernel, by decide +kernel, by decide +kernel, by decide +kernel, by decide +kernel⟩

/-! ## `repr` of an event -/

theorem eventStr_ne (h : Heap) (e : EId) : eventStr h e ≠ "" := by
  unfold eventStr
  intro hh
  have := congrArg String.toList hh
  split at this
  · split at this <;> simp [String.toList_append] at this
  · simp at this

theorem intercalate_ne {l : List String} (hl : l ≠ []) (hne : ∀ s ∈ l, s ≠ "") : ", ".intercalate l ≠ "" := by
  intro hh
  have := congrArg String.toList hh
  rw [String.toList_intercalate] at this
  match l, hl with
  | [a], _ => 
    simp at this
    exact hne a (by simp) this
  | a :: b :: l, _ => simp [intercalate_cons_cons'] at this

theorem shownArgs_eq (cls : String) (ps : List String) (l c : Option String) (hne : ∀ s ∈ ps, s ≠ "") :
    reprTemplate cls (", ".intercalate ps) l c = cls ++ "(" ++ ", ".intercalate (shownArgs ps l c) ++ ")" := by
  have hP : ", ".intercalate ps ≠ "" ↔ ps ≠ [] := by
    refine ⟨?_, fun h => intercalate_ne h hne⟩
    rintro h rfl; simp at h
  apply String.toList_inj.1
  unfold reprTemplate shownArgs
  by_cases hp : ps = []
  · have : ¬ (", ".intercalate ps ≠ "") := by rw [hP]; simpa using hp
    cases c <;> cases l <;> simp only [this, if_false, if_pos hp] <;>
      simp [String.toList_append, String.toList_intercalate, intercalate_cons_cons']
  · have : ", ".intercalate ps ≠ "" := hP.2 hp
    cases c <;> cases l <;> simp only [if_pos this, if_neg hp] <;>
      simp [String.toList_append, String.toList_intercalate, intercalate_cons_cons']

theorem eventStr_congr {h g : Heap} (so : h.SameOrder g) : eventStr g = eventStr h := by
  funext e; simp [eventStr, so.label]

theorem eventRepr_answers {h : Heap} (v : h.Valid) (it : Iter) (cls : String) (coords : EId → Option String) (e : EId) :
    h.Answers (eventRepr it cls coords e)
      (cls ++ "(" ++ ", ".intercalate (shownArgs ((it.ord [148, e] (h.pastLinks e)).map (eventStr h)) (reprLabel h e) (coords e)) ++ ")") := by
  unfold eventRepr
  refine Answers.bind (linkPast_answers v e) (AnswersWith.bind AnswersWith.get fun g so => AnswersWith.pure ?_)
  have h1 : reprLabel g e = reprLabel h e := by simp [reprLabel, so.label]
  rw [eventStr_congr so, h1]
  apply shownArgs_eq
  intro s hs
  obtain ⟨x, -, rfl⟩ := List.mem_map.1 hs
  exact eventStr_ne h x

/-- **C114, `repr` of an event.** Whatever has been linked before, `repr(e)` is the call of the class with the arguments past (the events linked to `e` in
its past, each once, as `str` shows them; left out if there are none), label (left out if it has none, `0` or the empty string) and coordinates (left out after `disembed`); 
asking for it changes no order and no label, and the link memory stays exact. -/
theorem C114_event {h : Heap} (v : h.Valid) (it : Iter) (cls : String) (coords : EId → Option String) (e : EId) :
    h.AnswersWith (eventRepr it cls coords e) (fun text => ∃ ps : List EId, ps.Nodup ∧ (∀ x, x ∈ ps ↔ Covers h.Lt x e) ∧
      text = cls ++ "(" ++ ", ".intercalate (shownArgs (ps.map (eventStr h)) 
        (shownLabel (h.label e)) (coords e)) ++ ")") := by
  refine (eventRepr_answers v it cls coords e).mono ?_
  rintro _ rfl
  refine ⟨it.ord [148, e] (h.pastLinks e), it.nodup _ _, fun x => by rw [it.mem, mem_pastLinks v], ?_⟩
  have : reprLabel h e = shownLabel (h.label e) := by
    rw [shownLabel_eq]
    unfold reprLabel
    cases h.label e with
    | none => simp
    | some l => simp
  rw [this]

/-! ## `repr` of a causet -/

theorem causetRepr_answers {h : Heap} (v : h.Valid) (it : Iter) (cls : String) (coords : EId → Option String) (C : Finset EId) :
    h.Answers (causetRepr it cls coords C) (if C = ∅ then "set()" else "{" ++ ", ".intercalate ((it.ord [37] C).map fun e =>
      cls ++ "(" ++ ", ".intercalate (shownArgs ((it.ord [148, e] (h.pastLinks e)).map (eventStr h)) (reprLabel h e) (coords e)) ++ ")") ++ "}") := by
  unfold causetRepr
  by_cases hC : C = ∅
  · simp only [if_pos hC]; exact Answers.pure
  · simp only [if_neg hC]
    exact Answers.bind (Answers.mapM _ fun e _ => eventRepr_answers v it cls coords e) Answers.pure

/-- **C114, `repr` of a causet.** It is `set()` for the empty causet, otherwise the text of every event, each once, between braces; 
asking for it changes no order and no label, and the link memory stays exact. -/
theorem C114_causet {h : Heap} (v : h.Valid) (it : Iter) (cls : String) (coords : EId → Option String) (C : Finset EId) :
    h.AnswersWith (causetRepr it cls coords C) (fun text => (C = ∅ → text = "set()") ∧ (C ≠ ∅ → ∃ (es : List EId) (ps : EId → List EId), 
      es.Nodup ∧ (∀ x, x ∈ es ↔ x ∈ C) ∧ (∀ e ∈ C, (ps e).Nodup ∧ ∀ x, x ∈ ps e ↔ Covers h.Lt x e) ∧
      text = "{" ++ ", ".intercalate (es.map fun e => cls ++ "(" ++ ", ".intercalate (shownArgs ((ps e).map (eventStr h)) 
        (shownLabel (h.label e)) (coords e)) ++ ")") ++ "}")) := by
  refine (causetRepr_answers v it cls coords C).mono ?_
  rintro _ rfl
  refine ⟨fun hC => by rw [if_pos hC], fun hC => ?_⟩
  refine ⟨it.ord [37] C, fun e => it.ord [148, e] (h.pastLinks e), it.nodup _ _, fun x => it.mem _ _ _, fun e _ => ⟨it.nodup _ _, fun x => by rw [it.mem, mem_pastLinks v]⟩, ?_⟩
  rw [if_neg hC]
  congr 2
  congr 1
  refine List.map_congr_left fun e _ => ?_
  have : reprLabel h e = shownLabel (h.label e) := by
    rw [shownLabel_eq]
    unfold reprLabel
    cases h.label e with
    | none => simp
    | some l => simp
  rw [this]

/-! ## The text determines the causet -/

/-- what the text says about one event: label, labels of the past links, coordinates -/
structure Entry where
  label : Label
  past : List Label
  coords : Option String

/-- text of an entry -/
def Entry.text (cls : String) (x : Entry) : String :=
  cls ++ "(" ++ ", ".intercalate (shownArgs (x.past.map (fun z => "#" ++ z.text)) (some x.label.text) x.coords) ++ ")"

/-- an entry that can be read back -/
structure Entry.Good (x : Entry) : Prop where
  label : x.label.Plain
  past : ∀ l ∈ x.past, l.Plain
  coords : ∀ c, x.coords = some c → CoordText c

theorem Entry.split (cls : String) (a b : Entry) (s t : List Char) (ha : a.Good) (hb : b.Good)
    (h : (a.text cls).toList ++ s = (b.text cls).toList ++ t) : a = b ∧ s = t := by
  obtain ⟨al, ap, ac⟩ := a
  obtain ⟨bl, bp, bc⟩ := b
  -- what follows the past
  have tail : ∀ s t : List Char, ("label=" ++ al.text).toList ++ ((match ac with | some c => ", coordinates=" ++ c ++ ")" | none => ")").toList ++ s) = 
      ("label=" ++ bl.text).toList ++ ((match bc with | some c => ", coordinates=" ++ c ++ ")" | none => ")").toList ++ t) → al = bl ∧ ac = bc ∧ s = t := by
    intro s t h
    simp only [String.toList_append, List.append_assoc, List.append_cancel_left_eq] at h
    cases ac with
    | none =>
      cases bc with
      | none =>
        obtain ⟨h1, h2⟩ := label_split (c := ')') (d := ')') ha.label hb.label (by decide) (by decide) h
        exact ⟨h1, rfl, by simpa using h2⟩
      | some c =>
        simp only [String.toList_append, List.append_assoc] at h
        obtain ⟨h1, h2⟩ := label_split (c := ')') (d := ',') ha.label hb.label (by decide) (by decide) h
        simp at h2
    | some c =>
      cases bc with
      | none =>
        simp only [String.toList_append, List.append_assoc] at h
        obtain ⟨h1, h2⟩ := label_split (c := ',') (d := ')') ha.label hb.label (by decide) (by decide) h
        simp at h2
      | some d =>
        simp only [String.toList_append, List.append_assoc] at h
        obtain ⟨h1, h2⟩ := label_split (c := ',') (d := ',') ha.label hb.label (by decide) (by decide) h
        have h3 : c.toList ++ (")".toList ++ s) = d.toList ++ (")".toList ++ t) := by simpa using h2
        obtain ⟨h4, h5⟩ := coord_split (ha.coords c rfl) (hb.coords d rfl) h3
        exact ⟨h1, by rw [h4], by simpa using h5⟩
  have full : ∀ (l : Label) (p : List Label) (c : Option String) (s : List Char), (Entry.text cls ⟨l, p, c⟩).toList ++ s = (cls ++ "(").toList ++
      ((if p = [] then [] else "past={".toList ++ (List.intercalate [',', ' '] (p.map (fun z => '#' :: z.text.toList)) ++ '}' :: [',', ' '])) ++
      (("label=" ++ l.text).toList ++ ((match c with | some c => ", coordinates=" ++ c ++ ")" | none => ")").toList ++ s))) := by
    intro l p c s
    have hf : (String.toList ∘ fun z : Label => "#" ++ z.text) = fun z => '#' :: z.text.toList := by funext z; simp
    cases c <;> by_cases hp : p = [] <;>
      simp [Entry.text, shownArgs, hp, String.toList_append, String.toList_intercalate, intercalate_cons_cons', hf]
  rw [full, full] at h
  replace h := List.append_cancel_left h
  have item : ∀ (a b : Label) (s t : List Char), a.Plain → b.Plain → (s.head? = some ',' ∨ s.head? = some '}') → (t.head? = some ',' ∨ t.head? = some '}') → 
      ('#' :: a.text.toList) ++ s = ('#' :: b.text.toList) ++ t → a = b ∧ s = t := by
    intro a b s t pa pb hs ht h
    have hc : ∀ u : List Char, (u.head? = some ',' ∨ u.head? = some '}') → ∃ c r, u = c :: r ∧ intChar c = false := by
      intro u hu
      cases u with
      | nil => simp at hu
      | cons c r => exact ⟨c, r, rfl, by rcases hu with hu | hu <;> cases hu <;> decide⟩
    simp only [List.cons_append, List.cons.injEq, true_and] at h
    obtain ⟨c, r, rfl, h1⟩ := hc s hs
    obtain ⟨d, q, rfl, h2⟩ := hc t ht
    exact label_split pa pb h1 h2 h
  by_cases hp : ap = [] <;> by_cases hq : bp = []
  · rw [if_pos hp, if_pos hq] at h
    obtain ⟨h1, h2, h3⟩ := tail s t h
    exact ⟨by rw [hp, hq, h1, h2], h3⟩
  · rw [if_pos hp, if_neg hq] at h; simp [String.toList_append] at h
  · rw [if_neg hp, if_pos hq] at h; simp [String.toList_append] at h
  · rw [if_neg hp, if_neg hq] at h
    simp only [List.append_assoc, List.cons_append] at h
    replace h := List.append_cancel_left h
    obtain ⟨h1, h2⟩ := list_split (fun z : Label => '#' :: z.text.toList) Label.Plain item ap bp _ _ ha.past hb.past hp hq h
    obtain ⟨h3, h4, h5⟩ := tail s t (by simpa using h2)
    exact ⟨by rw [h1, h3, h4], h5⟩

/-- the label (0 if there is none) -/
def labelOf (h : Heap) (e : EId) : Label := (h.label e).getD (.int 0)

theorem Label.Plain.truthy {l : Label} (hl : l.Plain) : Label.truthy (some l) = true := by
  cases l with
  | int z => exact decide_eq_true hl
  | str s => exact decide_eq_true hl.1

theorem PlainLabels.spec {h : Heap} {C : Finset EId} (n : PlainLabels h C) {e : EId} (he : e ∈ C) :
    (labelOf h e).Plain ∧ h.label e = some (labelOf h e) := by
  obtain ⟨z, hz, hl⟩ := n.plain e he
  simp [labelOf, hl, hz]

theorem PlainLabels.eq {h : Heap} {C : Finset EId} (n : PlainLabels h C) {a b : EId} (ha : a ∈ C) (hb : b ∈ C) (hab : labelOf h a = labelOf h b) : a = b :=
  n.inj a ha b hb (by rw [(n.spec ha).2, (n.spec hb).2, hab])

/-- the entry of an event -/
def entryOf (it : Iter) (h : Heap) (coords : EId → Option String) (e : EId) : Entry :=
  ⟨labelOf h e, (it.ord [148, e] (h.pastLinks e)).map (labelOf h), coords e⟩

theorem entryOf_good {h : Heap} (v : h.Valid) {C : Finset EId} (hC : Closed h.Lt C) (n : PlainLabels h C) (it : Iter) (coords : EId → Option String)
    {e : EId} (he : e ∈ C) (hc : ∀ c, coords e = some c → CoordText c) : (entryOf it h coords e).Good where
  label := (n.spec he).1
  past := by
    intro l hl
    obtain ⟨x, hx, rfl⟩ := List.mem_map.1 hl
    exact (n.spec (hC e he x (Or.inr ((mem_pastLinks v x e).1 ((it.mem _ _ _).1 hx)).1))).1
  coords := hc

theorem entryOf_text {h : Heap} (v : h.Valid) {C : Finset EId} (hC : Closed h.Lt C) (n : PlainLabels h C) (it : Iter) (cls : String) (coords : EId → Option String)
    {e : EId} (he : e ∈ C) : (entryOf it h coords e).text cls =
      cls ++ "(" ++ ", ".intercalate (shownArgs ((it.ord [148, e] (h.pastLinks e)).map (eventStr h)) (reprLabel h e) (coords e)) ++ ")" := by
  have h1 : reprLabel h e = some (labelOf h e).text := by
    obtain ⟨a, b⟩ := n.spec he
    unfold reprLabel
    rw [b]; simp only [a.truthy, if_true]
  have h2 : (it.ord [148, e] (h.pastLinks e)).map (eventStr h) = ((it.ord [148, e] (h.pastLinks e)).map (labelOf h)).map (fun z => "#" ++ z.text) := by
    rw [List.map_map]
    refine List.map_congr_left fun x hx => ?_
    have hx' : x ∈ C := hC e he x (Or.inr ((mem_pastLinks v x e).1 ((it.mem _ _ _).1 hx)).1)
    obtain ⟨a, b⟩ := n.spec hx'
    unfold eventStr
    rw [b]; simp only [a.truthy, if_true]; rfl
  rw [h1, h2]; rfl

theorem entry_mono {h h' : Heap} (v : h.Valid) (v' : h'.Valid) {C C' : Finset EId} (hC : Closed h.Lt C) (hC' : Closed h'.Lt C') (n' : PlainLabels h' C')
    {it it' : Iter} {coords coords' : EId → Option String} {f : EId → EId}
    (hf : ∀ e ∈ C, f e ∈ C' ∧ entryOf it' h' coords' (f e) = entryOf it h coords e) : ∀ a ∈ C, ∀ b ∈ C, h.Lt a b → h'.Lt (f a) (f b) := by
  intro a ha b hb hab
  have conv : OrdConvex h.Lt C := fun x hx y hy z hxz hzy => hC x hx z (Or.inl hxz)
  have step : ∀ x y, x ∈ C → y ∈ C → Covers h.Lt x y → h'.Lt (f x) (f y) := by
    intro x y hx hy hxy
    obtain ⟨e1, e2⟩ := hf y hy
    obtain ⟨e3, e4⟩ := hf x hx
    have hm : labelOf h x ∈ (entryOf it h coords y).past := List.mem_map.2 ⟨x, (it.mem _ _ _).2 ((mem_pastLinks v x y).2 hxy), rfl⟩
    rw [← e2] at hm
    obtain ⟨w, hw, hwl⟩ := List.mem_map.1 hm
    have hcov := (mem_pastLinks v' w (f y)).1 ((it'.mem _ _ _).1 hw)
    have hlab : labelOf h' (f x) = labelOf h x := congrArg Entry.label e4
    have : w = f x := n'.eq (hC' _ e1 w (Or.inr hcov.1)) e3 (by rw [hwl, hlab])
    rw [← this]; exact hcov.1
  have := transGen_covers v C conv _ a b le_rfl ha hb hab
  clear hab hb
  induction this with
  | single hs => exact step _ _ hs.1 hs.2.1 hs.2.2
  | tail _ hs ih => exact v'.trans ih (step _ _ hs.1 hs.2.1 hs.2.2)

/-- **C114, the text of a causet determines it.** If the events of two causets have different labels that are integers other than zero or strings without
quotes (not empty), as `FromPermutation` and the other constructors of the library give them, and `repr` gives the same text for both, then the causets are isomorphic, by a bijection that keeps labels and coordinates. -/
theorem C114_complete {h h' : Heap} (v : h.Valid) (v' : h'.Valid) {C C' : Finset EId} (hC : Closed h.Lt C) (hC' : Closed h'.Lt C')
    (n : PlainLabels h C) (n' : PlainLabels h' C') (it it' : Iter) (cls : String) (coords coords' : EId → Option String)
    (hc : ∀ e ∈ C, ∀ c, coords e = some c → CoordText c) (hc' : ∀ e ∈ C', ∀ c, coords' e = some c → CoordText c)
    (hl : h.LinksExact) (hl' : h'.LinksExact)
    (ht : ((causetRepr it cls coords C).run h).1 = ((causetRepr it' cls coords' C').run h').1) :
    ∃ f : EId → EId, CausalIso h.Lt h'.Lt C f ∧ C.image f = C' ∧ ∀ e ∈ C, h'.label (f e) = h.label e ∧ coords' (f e) = coords e := by
  rw [(causetRepr_answers v it cls coords C h ⟨rfl, rfl, rfl, rfl⟩ hl).1, (causetRepr_answers v' it' cls coords' C' h' ⟨rfl, rfl, rfl, rfl⟩ hl').1] at ht
  have hne : ∀ s : String, "set()" ≠ "{" ++ s ++ "}" := by
    intro s hs
    have := congrArg String.toList hs
    simp [String.toList_append] at this
  by_cases h0 : C = ∅ <;> by_cases h0' : C' = ∅
  · subst h0 h0'
    exact ⟨id, ⟨by simp, by simpa using hC, by simpa using hC', by simp⟩, by simp, by simp⟩
  · rw [if_pos h0, if_neg h0'] at ht; exact absurd ht (hne _)
  · rw [if_neg h0, if_pos h0'] at ht; exact absurd ht.symm (hne _)
  rw [if_neg h0, if_neg h0'] at ht
  -- the lists of entries agree
  have m1 : (it.ord [37] C).map (fun e => cls ++ "(" ++ ", ".intercalate (shownArgs ((it.ord [148, e] (h.pastLinks e)).map (eventStr h)) (reprLabel h e) (coords e)) ++ ")") =
      ((it.ord [37] C).map (entryOf it h coords)).map (Entry.text cls) := by
    rw [List.map_map]
    exact List.map_congr_left fun e he => (entryOf_text v hC n it cls coords ((it.mem _ _ _).1 he)).symm
  have m2 : (it'.ord [37] C').map (fun e => cls ++ "(" ++ ", ".intercalate (shownArgs ((it'.ord [148, e] (h'.pastLinks e)).map (eventStr h')) (reprLabel h' e) (coords' e)) ++ ")") =
      ((it'.ord [37] C').map (entryOf it' h' coords')).map (Entry.text cls) := by
    rw [List.map_map]
    exact List.map_congr_left fun e he => (entryOf_text v' hC' n' it' cls coords' ((it'.mem _ _ _).1 he)).symm
  rw [m1, m2] at ht
  have hL : ∀ (i : Iter) (D : Finset EId), D ≠ ∅ → i.ord [37] D ≠ [] := by
    intro i D hD hi
    obtain ⟨x, hx⟩ := Finset.nonempty_iff_ne_empty.2 hD
    have := (i.mem [37] D x).2 hx
    rw [hi] at this; simp at this
  have ht2 := congrArg String.toList ht
  simp only [String.toList_append, String.toList_intercalate, List.append_assoc] at ht2
  have ht3 := List.append_cancel_left ht2
  simp only [List.map_map] at ht3
  have hE := (list_split (fun x : Entry => (x.text cls).toList) Entry.Good
    (fun a b s t ha hb _ _ hh => Entry.split cls a b s t ha hb hh) ((it.ord [37] C).map (entryOf it h coords)) ((it'.ord [37] C').map (entryOf it' h' coords')) [] []
    (by
      intro x hx
      obtain ⟨e, he, rfl⟩ := List.mem_map.1 hx
      exact entryOf_good v hC n it coords ((it.mem _ _ _).1 he) (hc e ((it.mem _ _ _).1 he)))
    (by
      intro x hx
      obtain ⟨e, he, rfl⟩ := List.mem_map.1 hx
      exact entryOf_good v' hC' n' it' coords' ((it'.mem _ _ _).1 he) (hc' e ((it'.mem _ _ _).1 he)))
    (by simpa using hL it C h0) (by simpa using hL it' C' h0') (by rw [List.map_map, List.map_map]; exact ht3)).1
  -- the bijection
  have ex : ∀ e, ∃ e', e ∈ C → e' ∈ C' ∧ entryOf it' h' coords' e' = entryOf it h coords e := by
    intro e
    by_cases he : e ∈ C
    · have : entryOf it h coords e ∈ (it'.ord [37] C').map (entryOf it' h' coords') := hE ▸ List.mem_map.2 ⟨e, (it.mem _ _ _).2 he, rfl⟩
      obtain ⟨e', he', h1⟩ := List.mem_map.1 this
      exact ⟨e', fun _ => ⟨(it'.mem _ _ _).1 he', h1⟩⟩
    · exact ⟨0, fun hh => absurd hh he⟩
  have ex' : ∀ e, ∃ e', e ∈ C' → e' ∈ C ∧ entryOf it h coords e' = entryOf it' h' coords' e := by
    intro e
    by_cases he : e ∈ C'
    · have : entryOf it' h' coords' e ∈ (it.ord [37] C).map (entryOf it h coords) := hE ▸ List.mem_map.2 ⟨e, (it'.mem _ _ _).2 he, rfl⟩
      obtain ⟨e', he', h1⟩ := List.mem_map.1 this
      exact ⟨e', fun _ => ⟨(it.mem _ _ _).1 he', h1⟩⟩
    · exact ⟨0, fun hh => absurd hh he⟩
  choose f hf using ex
  choose g hg using ex'
  have gf : ∀ e ∈ C, g (f e) = e := fun e he => n.eq (hg _ (hf e he).1).1 he (by
    have h1 := congrArg Entry.label (hg _ (hf e he).1).2
    have h2 := congrArg Entry.label (hf e he).2
    exact h1.trans h2)
  have fg : ∀ e ∈ C', f (g e) = e := fun e he => n'.eq (hf _ (hg e he).1).1 he (by
    have h1 := congrArg Entry.label (hf _ (hg e he).1).2
    have h2 := congrArg Entry.label (hg e he).2
    exact h1.trans h2)
  have him : C.image f = C' := by
    ext x
    rw [Finset.mem_image]
    exact ⟨by rintro ⟨a, ha, rfl⟩; exact (hf a ha).1, fun hx => ⟨g x, (hg x hx).1, fg x hx⟩⟩
  refine ⟨f, ⟨fun a ha b hb hab => by rw [← gf a ha, hab, gf b hb], hC, him ▸ hC', fun a ha b hb => ⟨entry_mono v v' hC hC' n' hf a ha b hb, fun hab => ?_⟩⟩, him, fun e he => ⟨?_, congrArg Entry.coords (hf e he).2⟩⟩
  · have := entry_mono v' v hC' hC n hg _ (hf a ha).1 _ (hf b hb).1 hab
    rwa [gf a ha, gf b hb] at this
  · have hlab : labelOf h' (f e) = labelOf h e := congrArg Entry.label (hf e he).2
    rw [(n.spec he).2, (n'.spec (hf e he).1).2, hlab]

/-! ## Concrete cases and the limits of the text -/

theorem closed_all {h : Heap} (v : h.Valid) : Closed h.Lt (Finset.range h.next) := by
  intro a _ b hab
  rw [Finset.mem_range]
  rcases hab with hab | hab
  · exact (v.exists_of_lt _ _ hab).2
  · exact (v.exists_of_lt _ _ hab).1

/-- a new event with the events `P` in its past -/
def exNew (h : Heap) (l : Option Label) (P : List EId) : Heap := (h.newEvent Iter.asc l P []).2

theorem exNew_reach {h : Heap} (hr : LinkReachable h) (l : Option Label) (P : List EId) (hP : ∀ p ∈ P, h.Exists p) : LinkReachable (exNew h l P) :=
  .new h Iter.asc l P [] hr hP (by simp) (by simp)

/-- the diamond labelled 1, 2, 3, 'top' -/
def exNumbered : Heap :=
  exNew (exNew (exNew (exNew Heap.empty (some (.int 1)) []) (some (.int 2)) [0]) (some (.int 3)) [0]) (some (.str "top")) [1, 2]

theorem exNumbered_reach : LinkReachable exNumbered :=
  exNew_reach (exNew_reach (exNew_reach (exNew_reach .start _ _ (by simp)) _ _ (by decide +kernel)) _ _ (by decide +kernel)) _ _ (by decide +kernel)

/-- the hypotheses of `C114_complete` hold for a labelled diamond, and its text is the expected one -/
example : exNumbered.Valid ∧ exNumbered.LinksExact ∧ PlainLabels exNumbered {0, 1, 2, 3} ∧ Closed exNumbered.Lt {0, 1, 2, 3} ∧ CoordText "[0.5, np.float64(1.0)]" ∧
    ((causetRepr Iter.asc "CausetEvent" (fun e => if e = 1 then none else some "[]") {0, 1, 2, 3}).run exNumbered).1 =
      "{CausetEvent(label=1, coordinates=[]), CausetEvent(past={#1}, label=2), CausetEvent(past={#1}, label=3, coordinates=[]), CausetEvent(past={#2, #3}, label='top', coordinates=[])}" := by
  refine ⟨exNumbered_reach.valid, exNumbered_reach.linksExact, ⟨?_, by decide +kernel⟩, ?_, ⟨"0.5, np.float64(1.0)".toList, by decide +kernel, by decide +kernel⟩, by decide +kernel⟩
  · intro e he
    have : e = 0 ∨ e = 1 ∨ e = 2 ∨ e = 3 := by simpa using he
    rcases this with rfl | rfl | rfl | rfl
    · exact ⟨.int 1, by show (1 : ℤ) ≠ 0; decide, by decide +kernel⟩
    · exact ⟨.int 2, by show (2 : ℤ) ≠ 0; decide, by decide +kernel⟩
    · exact ⟨.int 3, by show (3 : ℤ) ≠ 0; decide, by decide +kernel⟩
    · exact ⟨.str "top", ⟨by decide +kernel, by decide +kernel⟩, by decide +kernel⟩
  · have : ({0, 1, 2, 3} : Finset ℕ) = Finset.range exNumbered.next := by decide +kernel
    rw [this]; exact closed_all exNumbered_reach.valid

/-- a chain of three events and a single event, without labels -/
def exThreeOne : Heap := exNew (exNew (exNew (exNew Heap.empty none []) none []) none [0]) none [2]

/-- two chains of two events, without labels -/
def exTwoTwo : Heap := exNew (exNew (exNew (exNew Heap.empty none []) none []) none [0]) none [1]

theorem exThreeOne_reach : LinkReachable exThreeOne :=
  exNew_reach (exNew_reach (exNew_reach (exNew_reach .start _ _ (by simp)) _ _ (by decide +kernel)) _ _ (by decide +kernel)) _ _ (by decide +kernel)

theorem exTwoTwo_reach : LinkReachable exTwoTwo :=
  exNew_reach (exNew_reach (exNew_reach (exNew_reach .start _ _ (by simp)) _ _ (by decide +kernel)) _ _ (by decide +kernel)) _ _ (by decide +kernel)

/-- **C114 is refuted for events without labels:** the text does not determine the causet. A chain of three events beside a single event prints like two chains of two. -/
theorem C114_unlabelled_refuted : ∃ (h h' : Heap) (C C' : Finset EId), LinkReachable h ∧ LinkReachable h' ∧ Closed h.Lt C ∧ Closed h'.Lt C' ∧
    ((causetRepr Iter.asc "CausetEvent" (fun _ => some "[]") C).run h).1 = ((causetRepr Iter.asc "CausetEvent" (fun _ => some "[]") C').run h').1 ∧
    ¬ ∃ f, CausalIso h.Lt h'.Lt C f ∧ C.image f = C' := by
  refine ⟨exThreeOne, exTwoTwo, Finset.range exThreeOne.next, Finset.range exTwoTwo.next, exThreeOne_reach, exTwoTwo_reach, closed_all exThreeOne_reach.valid, closed_all exTwoTwo_reach.valid, by decide +kernel, ?_⟩
  rintro ⟨f, hf, him⟩
  have m : ∀ x, x < 4 → f x < exTwoTwo.next := fun x hx => by
    have hx' : x ∈ Finset.range exThreeOne.next := by
      rw [Finset.mem_range]; exact lt_of_lt_of_eq hx (by decide +kernel)
    have := him ▸ Finset.mem_image_of_mem f hx'
    exact Finset.mem_range.1 this
  have h1 := (hf.iff 0 (by decide +kernel) 2 (by decide +kernel)).1 (by decide +kernel)
  have h2 := (hf.iff 2 (by decide +kernel) 3 (by decide +kernel)).1 (by decide +kernel)
  have key : ∀ a, a < exTwoTwo.next → ∀ b, b < exTwoTwo.next → ∀ c, c < exTwoTwo.next → ¬ (exTwoTwo.Lt a b ∧ exTwoTwo.Lt b c) := by
    decide +kernel
  exact key _ (m 0 (by decide)) _ (m 2 (by decide)) _ (m 3 (by decide)) ⟨h1, h2⟩

/-- one event with a label that contains quotes -/
def exQuoted : Heap := exNew Heap.empty (some (.str "a', coordinates=[]), CausetEvent(label='b")) []

/-- two events labelled a and b -/
def exAB : Heap := exNew (exNew Heap.empty (some (.str "a")) []) (some (.str "b")) []

theorem exQuoted_reach : LinkReachable exQuoted := exNew_reach .start _ _ (by simp)
theorem exAB_reach : LinkReachable exAB := exNew_reach (exNew_reach .start _ _ (by simp)) _ _ (by simp)

/-- **C114 is refuted for labels that are strings:** quotes in a label are not escaped, so that one event can print like two, even if all labels are different and not empty. -/
theorem C114_strings_refuted : ∃ (h h' : Heap) (C C' : Finset EId), LinkReachable h ∧ LinkReachable h' ∧ Closed h.Lt C ∧ Closed h'.Lt C' ∧
    (∀ a ∈ C, shownLabel (h.label a) ≠ none ∧ ∀ b ∈ C, h.label a = h.label b → a = b) ∧ (∀ a ∈ C', shownLabel (h'.label a) ≠ none ∧ ∀ b ∈ C', h'.label a = h'.label b → a = b) ∧
    ((causetRepr Iter.asc "CausetEvent" (fun _ => some "[]") C).run h).1 = ((causetRepr Iter.asc "CausetEvent" (fun _ => some "[]") C').run h').1 ∧
    ¬ ∃ f, CausalIso h.Lt h'.Lt C f ∧ C.image f = C' := by
  refine ⟨exQuoted, exAB, Finset.range exQuoted.next, Finset.range exAB.next, exQuoted_reach, exAB_reach, closed_all exQuoted_reach.valid, closed_all exAB_reach.valid, by decide +kernel, by decide +kernel, by decide +kernel, ?_⟩
  rintro ⟨f, -, him⟩
  have h1 := Finset.card_image_le (s := Finset.range exQuoted.next) (f := f)
  rw [him, Finset.card_range, Finset.card_range] at h1
  exact absurd h1 (by decide +kernel)

end Causets
