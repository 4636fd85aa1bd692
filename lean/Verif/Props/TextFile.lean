import Mathlib.Data.List.TakeWhile
import Verif.Model.TextFile
import Verif.Props.Matrix
import Verif.Props.Sorting

/-! # C62 — saving and reading causal matrices (causet.py:208-221, 325-331) -/

namespace Causets
open Heap

variable {h : Heap}

theorem splitChar_ne (d : Char) (a : List Char) : splitChar d a ≠ [] := by
  cases a with
  | nil => simp [splitChar]
  | cons c cs => rw [splitChar]; split; simp; split <;> simp

theorem splitChar_append (d : Char) : ∀ (a b : List Char), d ∉ a → splitChar d (a ++ d :: b) = a :: splitChar d b
  | [], b, _ => by simp [splitChar]
  | c :: cs, b, hd => by
    have hc : c ≠ d := fun e => hd (by simp [e])
    rw [List.cons_append, splitChar, if_neg hc, splitChar_append d cs b (fun hm => hd (by simp [hm]))]

theorem splitChar_self (d : Char) : ∀ (a : List Char), d ∉ a → splitChar d a = [a]
  | [], _ => rfl
  | c :: cs, hd => by
    have hc : c ≠ d := fun e => hd (by simp [e])
    rw [splitChar, if_neg hc, splitChar_self d cs (fun hm => hd (by simp [hm]))]

theorem splitChar_join (d : Char) : ∀ (ws : List (List Char)), ws ≠ [] → (∀ w ∈ ws, d ∉ w) → splitChar d (joinChar d ws) = ws
  | [], hn, _ => absurd rfl hn
  | [w], _, hd => by rw [joinChar, splitChar_self d w (hd w (by simp))]
  | w :: w' :: ws, _, hd => by
    rw [joinChar, splitChar_append d w _ (hd w (by simp)), splitChar_join d (w' :: ws) (by simp) (fun x hx => hd x (by simp [hx]))]
    simp

theorem splitChar_lines (d : Char) : ∀ (ws : List (List Char)), (∀ w ∈ ws, d ∉ w) → splitChar d (ws.flatMap (fun w => w ++ [d])) = ws ++ [[]]
  | [], _ => rfl
  | w :: ws, hd => by
    rw [List.flatMap_cons, List.append_assoc, List.cons_append, List.nil_append, splitChar_append d w _ (hd w (by simp)),
      splitChar_lines d ws (fun x hx => hd x (by simp [hx]))]
    rfl

theorem mem_joinChar (d c : Char) : ∀ (ws : List (List Char)), c ∈ joinChar d ws → c = d ∨ ∃ w ∈ ws, c ∈ w
  | [], hc => by simp [joinChar] at hc
  | [w], hc => Or.inr ⟨w, by simp, hc⟩
  | w :: w' :: ws, hc => by
    rw [joinChar] at hc
    · rcases List.mem_append.1 hc with hc | hc
      · exact Or.inr ⟨w, by simp, hc⟩
      · rcases List.mem_cons.1 hc with hc | hc
        · exact Or.inl hc
        · rcases mem_joinChar d c (w' :: ws) hc with h1 | ⟨x, hx, hcx⟩
          · exact Or.inl h1
          · exact Or.inr ⟨x, by simp [hx], hcx⟩
    · simp

/-- what is read back from a written matrix with at least one column -/
theorem genRows_savetxt (rd : ReadInt) (M : List (List Bool)) (hM : ∀ row ∈ M, row ≠ []) :
    genRows rd ',' (savetxt M) = M.map (fun row => row.map (fun b => if b then 1 else 0)) := by
  set line : List Bool → List Char := fun row => joinChar ',' (row.map (fun b => if b then ['1'] else ['0'])) with hline
  have hmem : ∀ row c, c ∈ line row → c = ',' ∨ c = '0' ∨ c = '1' := by
    intro row c hc
    rcases mem_joinChar _ _ _ hc with h1 | ⟨w, hw, hcw⟩
    · exact Or.inl h1
    · obtain ⟨b, -, rfl⟩ := List.mem_map.1 hw
      cases b <;> simp at hcw <;> simp [hcw]
  have hsplit : ∀ row ∈ M, splitChar ',' (line row) = row.map (fun b => if b then ['1'] else ['0']) := by
    intro row hr
    refine splitChar_join _ _ (by simpa using hM row hr) ?_
    intro w hw
    obtain ⟨b, -, rfl⟩ := List.mem_map.1 hw
    cases b <;> simp
  have hne : ∀ row ∈ M, line row ≠ [] := by
    intro row hr h0
    have := hsplit row hr
    rw [h0] at this
    match row, hM row hr, this with
    | b :: bs, _, this => cases b <;> simp [splitChar] at this
  have h1 : splitChar '\n' (savetxt M) = M.map line ++ [[]] := by
    have : savetxt M = (M.map line).flatMap (fun w => w ++ ['\n']) := by
      unfold savetxt; rw [List.flatMap_map]
    rw [this, splitChar_lines]
    intro w hw
    obtain ⟨row, -, rfl⟩ := List.mem_map.1 hw
    intro hc
    rcases hmem row _ hc with h1 | h1 | h1 <;> revert h1 <;> decide
  unfold genRows
  rw [h1, List.map_append, List.map_map]
  have h2 : M.map ((fun line => line.takeWhile (fun c => decide (c ≠ '#'))) ∘ line) = M.map line := by
    apply List.map_congr_left
    intro row hr
    simp only [Function.comp]
    rw [List.takeWhile_eq_self_iff]
    intro c hc
    rcases hmem row c hc with rfl | rfl | rfl <;> decide
  rw [h2, List.filter_append, List.filter_eq_self.2]
  · simp only [List.map_cons, List.map_nil, List.takeWhile_nil, ne_eq, not_true_eq_false, decide_false, Bool.false_eq_true, not_false_eq_true, List.filter_cons_of_neg,
      List.filter_nil, List.append_nil, List.map_map]
    apply List.map_congr_left
    intro row hr
    simp only [Function.comp, hsplit row hr, List.map_map]
    apply List.map_congr_left
    intro b _
    cases b
    · exact rd.zero
    · exact rd.one
  · intro w hw
    obtain ⟨row, hr, rfl⟩ := List.mem_map.1 hw
    simpa using hne row hr

theorem genfromtxt_savetxt (rd : ReadInt) (M : List (List Bool)) (n : ℕ) (hn : M.length = n) (hM : ∀ row ∈ M, row.length = n) :
    (2 ≤ n → ∃ C, genfromtxt rd ',' (savetxt M) = .ok (some C) ∧ C.rows = n ∧ C.cols = n ∧ ∀ i < n, ∀ j < n, C.at' i j = matEntry M i j) ∧
    (n < 2 → genfromtxt rd ',' (savetxt M) = .ok none) := by
  have hne : ∀ row ∈ M, row ≠ [] := by
    rintro row hr rfl
    have h1 := hM _ hr
    have h2 := List.length_pos_of_mem hr
    simp at h1; omega
  have hg := genRows_savetxt rd M hne
  unfold genfromtxt
  rw [hg]
  match M, hn, hM with
  | [], hn, _ =>
    simp at hn
    exact ⟨fun h2 => by omega, fun _ => rfl⟩
  | row :: rows, hn, hM =>
    simp only [List.map_cons]
    have hall : ((rows.map (fun row => row.map (fun b => if b then (1 : ℤ) else 0))).all (fun r => decide (r.length = (row.map (fun b => if b then (1 : ℤ) else 0)).length))) = true := by
      rw [List.all_eq_true]
      intro r hr
      obtain ⟨r', hr', rfl⟩ := List.mem_map.1 hr
      simp [hM r' (by simp [hr']), hM row (by simp)]
    rw [if_pos hall]
    have hrl := hM row (by simp)
    have hcl : rows.length + 1 = n := by simpa using hn
    constructor
    · intro h2
      rw [if_pos (by simp [hrl]; omega)]
      refine ⟨_, rfl, by simpa using hn, by simpa using hrl, fun i hi j hj => ?_⟩
      have e1 : ((row.map (fun b => if b then (1 : ℤ) else 0)) :: rows.map (fun row => row.map (fun b => if b then (1 : ℤ) else 0))) =
          (row :: rows).map (fun row => row.map (fun b => if b then (1 : ℤ) else 0)) := rfl
      simp only [e1]
      have hi' : i < (row :: rows).length := by simpa [hcl] using hi
      have hj' : j < (row :: rows)[i].length := by rw [hM _ (List.getElem_mem hi')]; exact hj
      unfold matEntry
      simp only [List.getD_eq_getElem?_getD, List.getElem?_map, List.getElem?_eq_getElem hi', Option.map_some, Option.getD_some, List.getElem?_eq_getElem hj']
      cases (row :: rows)[i][j] <;> simp
    · intro h2
      rw [if_neg (by simp [hrl]; omega)]

/-- **C62.** For every consistent state and causet with at least two events whose events can be sorted (for example with integer labels, see `C62_saves`): `saveAsCSV` and then `FromTextFile`, in any later or other consistent state and
with any iteration orders, gives a causet of new events, labelled 1, 2, ... in the order in which the events were written, the events being related as the original ones; `PastMatrix` of them in this order is the saved matrix.  Read as future matrix, the
order is reversed. -/
theorem C62_roundtrip (it : Iter) (as : ArgSort) (v : h.Valid) (C : Finset EId) (hC : 2 ≤ C.card) (text : List Char) (hs : h.saveAsCSV it as C = .ok text)
    (it' : Iter) (rd : ReadInt) (g : Heap) (vg : g.Valid) : ∃ l, LinearExtension h.Lt C l ∧
    (∃ (ids : Fin l.length → EId) (g' : Heap), fromTextFile it' rd text true ',' g = (.ok (Finset.univ.image ids), g') ∧
      g.Realises g' ids (fun j i => h.Lt l[j] l[i]) ∧ (∀ i, g'.label (ids i) = some (.int ((i : ℕ) + 1))) ∧
      ∀ it'' as', g'.pastMatrix it'' as' (Finset.univ.image ids) (some (List.ofFn ids)) = h.pastMatrix it as C none) ∧
    (∃ (ids : Fin l.length → EId) (g' : Heap), fromTextFile it' rd text false ',' g = (.ok (Finset.univ.image ids), g') ∧
      g.Realises g' ids (fun j i => h.Lt l[i] l[j])) := by
  unfold saveAsCSV at hs
  split at hs
  · simp at hs
  rename_i M hM
  rw [← Except.ok.inj hs]
  obtain ⟨l, hl, rfl⟩ : ∃ l, h.sortedByCausality it as C none false = .ok l ∧ M = h.pastMatrixOf l := by
    unfold pastMatrix at hM
    simp only at hM
    split at hM
    · simp at hM
    · rename_i l hl; exact ⟨l, hl, (Except.ok.inj hM).symm⟩
  have hlin : LinearExtension h.Lt C l := (C36_sortedByCausality it as v C C).2.1 l hl
  have hlen : l.length = C.card := by
    rw [← List.toFinset_card_of_nodup hlin.1.1]
    congr 1
    ext x; simp [hlin.1.2]
  have hmat : IsMatrixOf l (fun a b => h.Lt b a) (h.pastMatrixOf l) :=
    (isMatrixOf_map l (fun a b => h.gt a b)).congr (fun a b => by simp [gt, Lt, lt])
  obtain ⟨B, eB, hr, hc, hat⟩ := (genfromtxt_savetxt rd (h.pastMatrixOf l) l.length hmat.1 hmat.2.1).1 (by omega)
  have hB : ∀ i j (hi : i < l.length) (hj : j < l.length), B.at' i j = true ↔ h.Lt l[j] l[i] := fun i j hi hj => by
    rw [hat i hi j hj]; exact hmat.2.2 i j hi hj
  have hord : IsOrderMatrix l.length B := by
    refine ⟨hr, hc, fun i hi => ?_, fun i hi j hj k hk h1 h2 => ?_⟩
    · rw [← Bool.not_eq_true, hB i i hi hi]; exact v.irrefl _
    · rw [hB _ _ hi hj] at h1; rw [hB _ _ hj hk] at h2; rw [hB _ _ hi hk]; exact v.trans h2 h1
  refine ⟨l, hlin, ?_, ?_⟩
  · obtain ⟨ids, g', e1, r1, r2, -, r4⟩ := C14_fromPastMatrix it' l.length B hord g vg
    have hR : (fun j i : Fin l.length => B.at' i j = true) = fun j i => h.Lt l[j] l[i] := by
      funext j i; exact propext (hB i j i.2 j.2)
    rw [hR] at r1
    refine ⟨ids, g', by simp [fromTextFile, eB, e1], r1, r2, fun it'' as' => ?_⟩
    rw [hM]
    obtain ⟨M', e2, k1, k2, k3⟩ := r4 it'' as'
    rw [e2]
    congr 1
    apply List.ext_getElem
    · rw [k1, hmat.1]
    · intro i hi hi'
      apply List.ext_getElem
      · rw [k2 _ (List.getElem_mem hi), hmat.2.1 _ (List.getElem_mem hi')]
      · intro j hj hj'
        have hil : i < l.length := by omega
        have hjl : j < l.length := by rwa [k2 _ (List.getElem_mem hi)] at hj
        have := k3 i j hil hjl
        rw [hat i hil j hjl] at this
        simpa [matEntry, List.getD_eq_getElem?_getD, hi, hi', hj, hj'] using this
  · have hordT : IsOrderMatrix l.length B.transpose := by
      refine ⟨hc, hr, fun i hi => hord.irrefl i hi, fun i hi j hj k hk h1 h2 => hord.trans k hk j hj i hi h2 h1⟩
    obtain ⟨ids, g', e1, r1, -⟩ := C14_fromPastMatrix it' l.length B.transpose hordT g vg
    have hR : (fun j i : Fin l.length => B.transpose.at' i j = true) = fun j i => h.Lt l[i] l[j] := by
      funext j i; exact propext (hB j i j.2 i.2)
    rw [hR] at r1
    exact ⟨ids, g', by simp [fromTextFile, eB, fromFutureMatrix, e1], r1⟩

/-- Causets with integer labels (that is the default of all constructors) are saved. -/
theorem C62_saves (it : Iter) (as : ArgSort) (v : h.Valid) (C : Finset EId) (z : EId → ℤ) (hz : IntLabels h C z) : ∃ text, h.saveAsCSV it as C = .ok text := by
  obtain ⟨l, P, F, -, hP, -⟩ := C37_default it as v C z hz
  exact ⟨savetxt P, by simp [saveAsCSV, hP]⟩

/-- **C62, refuted for fewer than two events.** The file of an empty causet or of a single event cannot be read: IndexError. -/
theorem C62_small_refuted (it : Iter) (as : ArgSort) (v : h.Valid) (C : Finset EId) (hC : C.card < 2) (text : List Char) (hs : h.saveAsCSV it as C = .ok text)
    (it' : Iter) (rd : ReadInt) (g : Heap) (isPast : Bool) : fromTextFile it' rd text isPast ',' g = (.error .indexError, g) := by
  unfold saveAsCSV at hs
  split at hs
  · simp at hs
  rename_i M hM
  rw [← Except.ok.inj hs]
  obtain ⟨l, hl, rfl⟩ : ∃ l, h.sortedByCausality it as C none false = .ok l ∧ M = h.pastMatrixOf l := by
    unfold pastMatrix at hM
    simp only at hM
    split at hM
    · simp at hM
    · rename_i l hl; exact ⟨l, hl, (Except.ok.inj hM).symm⟩
  have hlin : LinearExtension h.Lt C l := (C36_sortedByCausality it as v C C).2.1 l hl
  have hlen : l.length = C.card := by
    rw [← List.toFinset_card_of_nodup hlin.1.1]
    congr 1
    ext x; simp [hlin.1.2]
  have hmat : IsMatrixOf l (fun a b => h.Lt b a) (h.pastMatrixOf l) :=
    (isMatrixOf_map l (fun a b => h.gt a b)).congr (fun a b => by simp [gt, Lt, lt])
  have := (genfromtxt_savetxt rd (h.pastMatrixOf l) l.length hmat.1 hmat.2.1).2 (by omega)
  simp [fromTextFile, this]

/-- a reader -/
def exReadInt : ReadInt := ⟨fun w => if w = ['0'] then 0 else if w = ['1'] then 1 else -1, by decide, by decide⟩

/-- C62: the file of the diamond -/
example : (exDiamond.saveAsCSV Iter.asc exArgSort {0, 1, 2, 3}).toOption = some "0,0,0,0\n1,0,0,0\n1,0,0,0\n1,1,1,0\n".toList := by decide

end Causets
