import Verif.Model.ReprSpacetime
import Verif.Props.Repr

/-! # C118: `repr` and `str` of spacetimes -/

namespace Causets

/-- **Specification.** The objects the constructors return. -/
def SpacetimePy.Made : SpacetimePy → Prop
  | .base => True
  | .flat d p => ∃ (d' : ℤ) (a : PeriodArg), flatPy d' a = .ok (.flat d p)
  | .deSitter d r => 2 ≤ d ∧ 0 < r
  | .antiDeSitter d r => 2 ≤ d ∧ 0 < r
  | .blackHole r _ => 0 < r

/-! ## parsing -/

theorem noSpace_append (a b : List Tok) : noSpace (a ++ b) = noSpace a ++ noSpace b := by simp [noSpace]

theorem noSpace_num (r : ℝ) : noSpace (numToks r) = numToks r := by
  unfold numToks
  split <;> simp [noSpace]

theorem parseNum_toks (r : ℝ) (ts : List Tok) : parseNum (numToks r ++ ts) = some (r, ts) := by
  unfold numToks
  split <;> simp [parseNum]

/-- an entry never starts with a closing bracket -/
theorem parseEntries_num (close : String) (hc : close ≠ "-") (fuel : ℕ) (r : ℝ) (ts : List Tok) :
    parseEntries close (fuel + 1) (numToks r ++ ts) = parseEntries.parseEntry close fuel (numToks r ++ ts) := by
  unfold numToks
  split
  · simp [parseEntries, hc.symm]
  · simp [parseEntries]

theorem parseEntry_comma (close : String) (fuel : ℕ) (r : ℝ) (ts : List Tok) :
    parseEntries.parseEntry close fuel (numToks r ++ .op "," :: ts) = (parseEntries close fuel ts).map (fun p => (r :: p.1, true, p.2.2)) := by
  unfold parseEntries.parseEntry
  rw [parseNum_toks]
  simp only [if_true]
  cases parseEntries close fuel ts <;> rfl

theorem parseEntry_close (close : String) (hc : close ≠ ",") (fuel : ℕ) (r : ℝ) (ts : List Tok) :
    parseEntries.parseEntry close fuel (numToks r ++ .op close :: ts) = some ([r], false, ts) := by
  unfold parseEntries.parseEntry
  rw [parseNum_toks]
  simp [hc]

theorem parseEntries_comma : ∀ (rs : List ℝ) (r : ℝ) (fuel : ℕ) (ts : List Tok), rs.length + 1 ≤ fuel →
    ∃ b, parseEntries ")" fuel (noSpace (commaToks (r :: rs)) ++ .op ")" :: ts) = some (r :: rs, b, ts) ∧ (b = true ↔ rs ≠ [])
  | [], r, fuel, ts, hf => by
    obtain ⟨f, rfl⟩ : ∃ f, fuel = f + 1 := ⟨fuel - 1, by simp at hf; omega⟩
    refine ⟨false, ?_, by simp⟩
    rw [commaToks, noSpace_num, parseEntries_num _ (by decide), parseEntry_close _ (by decide)]
  | r' :: rs, r, fuel, ts, hf => by
    obtain ⟨f, rfl⟩ : ∃ f, fuel = f + 1 := ⟨fuel - 1, by simp at hf; omega⟩
    obtain ⟨b, h1, h2⟩ := parseEntries_comma rs r' f ts (by simpa using hf)
    refine ⟨true, ?_, by simp⟩
    rw [commaToks, noSpace_append, noSpace_append, noSpace_num, List.append_assoc, List.append_assoc,
      parseEntries_num _ (by decide)]
    rw [show noSpace [Tok.op ",", Tok.space] = [.op ","] from rfl, List.singleton_append, parseEntry_comma, h1]
    rfl

theorem commaToks_length : ∀ (rs : List ℝ) (ts : List Tok), rs.length ≤ (noSpace (commaToks rs) ++ ts).length
  | [], _ => by simp
  | [r], ts => by
    rw [commaToks, noSpace_num]
    unfold numToks
    split <;> simp
  | r :: r' :: rs, ts => by
    have := commaToks_length (r' :: rs) ts
    rw [commaToks, noSpace_append, noSpace_append, noSpace_num, List.append_assoc, List.length_append, List.length_append]
    have h1 : 1 ≤ (noSpace [Tok.op ",", Tok.space]).length := by decide
    rw [List.length_cons]
    omega

theorem parseExpr_tuple (ps : List ℝ) (ts : List Tok) : parseExpr (noSpace (tupleToks ps) ++ ts) = some (.tuple ps, ts) := by
  match ps with
  | [] => simp [tupleToks, noSpace, parseExpr, parseEntries]
  | [r] =>
    rw [tupleToks, noSpace_append, noSpace_append, noSpace_num]
    rw [show noSpace [Tok.op "("] = [.op "("] from rfl, show noSpace [Tok.op ",", Tok.op ")"] = [.op ",", .op ")"] from rfl]
    simp only [List.singleton_append, List.append_assoc, List.cons_append, List.nil_append]
    rw [parseExpr, if_pos rfl]
    · have : parseEntries ")" ((numToks r ++ Tok.op "," :: Tok.op ")" :: ts).length + 1) (numToks r ++ Tok.op "," :: Tok.op ")" :: ts) =
          some ([r], true, ts) := by
        rw [parseEntries_num _ (by decide), parseEntry_comma]
        rw [show (numToks r ++ Tok.op "," :: Tok.op ")" :: ts).length = ((numToks r ++ Tok.op ")" :: ts).length + 1) by simp; omega]
        simp [parseEntries]
      rw [this]
  | r :: r' :: rs =>
    rw [tupleToks, noSpace_append, noSpace_append]
    · rw [show noSpace [Tok.op "("] = [.op "("] from rfl, show noSpace [Tok.op ")"] = [.op ")"] from rfl]
      simp only [List.singleton_append, List.append_assoc, List.cons_append, List.nil_append]
      rw [parseExpr, if_pos rfl]
      obtain ⟨b, h1, h2⟩ := parseEntries_comma (r' :: rs) r ((noSpace (commaToks (r :: r' :: rs)) ++ Tok.op ")" :: ts).length + 1) ts
        (by have := commaToks_length (r :: r' :: rs) (Tok.op ")" :: ts); simp only [List.length_cons] at this ⊢; omega)
      rw [h1]
    · simp
    · simp

/-- what follows the dimension -/
theorem parseCall_head (cls : String) (d : ℕ) (rest : List Tok) :
    parseCall (headToks cls d ++ rest) = (parseArgs (2 + (noSpace rest).length) (.int d :: .op "," :: noSpace rest)).map (cls, ·) := by
  have : noSpace (headToks cls d ++ rest) =
      .name cls :: .op "(" :: .int d :: .op "," :: noSpace rest := by
    simp [headToks, noSpace]
  unfold parseCall
  rw [this]
  simp only [if_true, List.length_cons]
  rw [show (noSpace rest).length + 1 + 1 = 2 + (noSpace rest).length by omega]

theorem parseArgs_dim (d n : ℕ) (rest : List Tok) :
    parseArgs (2 + n) (.int d :: .op "," :: rest) = (parseArgs (1 + n) rest).map (.pos (.int d) :: ·) := by
  rw [show 2 + n = (1 + n) + 1 by omega, parseArgs]
  simp only [parseArg, parseExpr, Option.map_some]
  cases rest
  · simp [add_comm 1 n, parseArgs, parseArg, parseExpr, parseNum]
  · simp

theorem parseArgs_last (fuel : ℕ) (ts : List Tok) (a : PyArg) (h : parseArg ts = some (a, [.op ")"])) : parseArgs (1 + fuel) ts = some [a] := by
  rw [add_comm, parseArgs, h]
  simp

theorem parse_text (cls : String) (d : ℕ) (rest : List Tok) (a : PyArg) (h : parseArg (noSpace rest) = some (a, [.op ")"])) :
    parseCall (headToks cls d ++ rest) = some (cls, [.pos (.int d), a]) := by
  rw [parseCall_head, parseArgs_dim, parseArgs_last _ _ a h]
  rfl

theorem parseArg_dict (key : String) (r : ℝ) :
    parseArg (noSpace ([.op "**"] ++ dictToks key r ++ [.op ")"])) = some (.star (.dict [(key, r)]), [.op ")"]) := by
  rw [dictToks, noSpace_append, noSpace_append, noSpace_append, noSpace_append, noSpace_num]
  rw [show noSpace [Tok.op "**"] = [.op "**"] from rfl, show noSpace [Tok.op ")"] = [.op ")"] from rfl, show noSpace [Tok.op "}"] = [.op "}"] from rfl,
    show noSpace [Tok.op "{", Tok.str key, Tok.op ":", Tok.space] = [.op "{", .str key, .op ":"] from rfl]
  simp only [List.singleton_append, List.append_assoc, List.cons_append, List.nil_append]
  rw [parseArg, if_pos rfl, parseExpr, if_neg (by decide), if_neg (by decide), if_pos rfl, parseDict, if_pos rfl, parseNum_toks]
  simp

theorem parseArg_tuple (ps : List ℝ) :
    parseArg (noSpace ([.name "period", .op "="] ++ tupleToks ps ++ [.op ")"])) = some (.kw "period" (.tuple ps), [.op ")"]) := by
  rw [noSpace_append, noSpace_append]
  rw [show noSpace [Tok.name "period", Tok.op "="] = [.name "period", .op "="] from rfl, show noSpace [Tok.op ")"] = [.op ")"] from rfl]
  simp only [List.append_assoc, List.cons_append, List.nil_append]
  rw [parseArg, if_pos rfl, parseExpr_tuple]
  rfl

/-! ## The texts that can be evaluated -/

theorem eval_text (cls : String) (d : ℕ) (rest : List Tok) (a : PyArg) (h : parseArg (noSpace rest) = some (a, [.op ")"])) :
    evalText (headToks cls d ++ rest) = some (do
      let v ← evalArgs [.pos (.int d), a]
      callClass cls v.1 v.2) := by
  unfold evalText
  rw [parse_text cls d rest a h]
  rfl

/-- **C118, texts that reproduce the object.** `repr` of a de Sitter or anti-de Sitter spacetime, and of a flat spacetime with a tuple of periods (one of
them positive), is an expression whose value is an equal spacetime. -/
theorem C118_roundtrip (short : ℝ → ℝ) (M : SpacetimePy) (hM : M.Made)
    (h : (∃ d r, M = .deSitter d r) ∨ (∃ d r, M = .antiDeSitter d r) ∨ ∃ d ps, M = .flat d (some (.tuple ps))) :
    ∃ ts, M.repr short = .ok ts ∧ evalText ts = some (.ok M) := by
  rcases h with ⟨d, r, rfl⟩ | ⟨d, r, rfl⟩ | ⟨d, ps, rfl⟩
  · obtain ⟨h1, h2⟩ := hM
    refine ⟨_, rfl, ?_⟩
    rw [List.append_assoc, List.append_assoc, ← List.append_assoc [Tok.op "**"], eval_text _ _ _ _ (parseArg_dict _ _)]
    have h1' : ¬ ((d : ℤ) < 2) := by omega
    simp [evalArgs, evalExpr, callClass, bindArgs, bind, Except.bind, pure, Except.pure, numArg, dSInit, h1', h2, test]
  · obtain ⟨h1, h2⟩ := hM
    refine ⟨_, rfl, ?_⟩
    rw [List.append_assoc, List.append_assoc, ← List.append_assoc [Tok.op "**"], eval_text _ _ _ _ (parseArg_dict _ _)]
    have h1' : ¬ ((d : ℤ) < 2) := by omega
    simp [evalArgs, evalExpr, callClass, bindArgs, bind, Except.bind, pure, Except.pure, numArg, dSInit, h1', h2, test]
  · obtain ⟨d', a, ha⟩ := hM
    refine ⟨_, rfl, ?_⟩
    rw [List.append_assoc, List.append_assoc, ← List.append_assoc [Tok.name "period", Tok.op "="], eval_text _ _ _ _ (parseArg_tuple _)]
    have key : flatPy d (.tuple ps) = .ok (.flat d (some (.tuple ps))) := by
      unfold flatPy at ha ⊢
      split at ha
      · cases ha
      · rename_i hd
        have hd' : ¬ ((d : ℤ) < 1) ∧ (ps.length : ℤ) = d - 1 ∧ ∃ p ∈ ps, p > 0 := by
          cases a with
          | float p => simp only at ha; split at ha <;> simp at ha
          | other => simp at ha
          | tuple qs =>
            simp only at ha
            split at ha
            · rename_i hl
              split at ha
              · rename_i hp
                simp only [Except.ok.injEq, SpacetimePy.flat.injEq, Option.some.injEq, PeriodAttr.tuple.injEq] at ha
                obtain ⟨rfl, rfl⟩ := ha
                have : ((d'.toNat : ℕ) : ℤ) = d' := Int.toNat_of_nonneg (by omega)
                rw [this]
                exact ⟨hd, hl, hp⟩
              · simp at ha
            · cases ha
        rw [if_neg hd'.1]
        simp only [if_pos hd'.2.1, if_pos hd'.2.2]
        simp
    simp [evalArgs, evalExpr, callClass, bindArgs, bind, Except.bind, pure, Except.pure, periodArg, key]

/-! ## The texts that cannot -/

/-- two numbers without a comma between them are not an entry -/
theorem parse_two (r r' : ℝ) (fuel : ℕ) (ts : List Tok) : parseEntries "]" fuel (numToks r ++ (numToks r' ++ ts)) = none := by
  cases fuel with
  | zero => simp [parseEntries]
  | succ f =>
    rw [parseEntries_num _ (by decide)]
    unfold parseEntries.parseEntry
    rw [parseNum_toks]
    by_cases h : r' < 0 <;> simp [numToks, test, h]

theorem noSpace_spaceToks (r r' : ℝ) (rs : List ℝ) : ∃ ts, noSpace (spaceToks (r :: r' :: rs)) = numToks r ++ (numToks r' ++ ts) := by
  cases rs with
  | nil => exact ⟨[], by rw [spaceToks, noSpace_append, noSpace_append, noSpace_num, spaceToks, noSpace_num]; simp [noSpace]⟩
  | cons r'' rs =>
    refine ⟨noSpace ([.space] ++ spaceToks (r'' :: rs)), ?_⟩
    rw [spaceToks, noSpace_append, noSpace_append, noSpace_num, spaceToks, noSpace_append, noSpace_append, noSpace_num, noSpace_append]
    simp [noSpace]

theorem parseArg_array (ps : List ℝ) :
    parseArg (noSpace ([.name "period", .op "="] ++ ([.op "["] ++ spaceToks ps ++ [.op "]"]) ++ [.op ")"])) =
      if ps.length ≤ 1 then some (.kw "period" (.list ps), [.op ")"]) else none := by
  rw [noSpace_append, noSpace_append, noSpace_append, noSpace_append]
  rw [show noSpace [Tok.name "period", Tok.op "="] = [.name "period", .op "="] from rfl, show noSpace [Tok.op ")"] = [.op ")"] from rfl,
    show noSpace [Tok.op "]"] = [.op "]"] from rfl, show noSpace [Tok.op "["] = [.op "["] from rfl]
  simp only [List.append_assoc, List.cons_append, List.nil_append]
  rw [parseArg, if_pos rfl, parseExpr, if_neg (by decide), if_pos rfl]
  match ps with
  | [] => simp [spaceToks, noSpace, parseEntries]
  | [r] =>
    rw [spaceToks, noSpace_num, parseEntries_num _ (by decide), parseEntry_close _ (by decide)]
    simp
  | r :: r' :: rs =>
    obtain ⟨ts, hts⟩ := noSpace_spaceToks r r' rs
    rw [hts, List.append_assoc, List.append_assoc, parse_two]
    simp

theorem parseCall_none (cls : String) (d : ℕ) (rest : List Tok) (h : parseArg (noSpace rest) = none) : parseCall (headToks cls d ++ rest) = none := by
  rw [parseCall_head, parseArgs_dim, add_comm 1, parseArgs, h]
  rfl

/-- **C118, refuted: `repr` is an expression for the object.** `repr` raises KeyError for a flat spacetime that is not periodic.  With a float as period the
text does not evaluate: SyntaxError in three or more dimensions (a NumPy array is printed without commas), ValueError in one or two dimensions (a list is
neither a float nor a tuple).  The text of a black hole raises NameError (the metric has no quotes), the text of the base class TypeError (its constructor
has no parameters). -/
theorem C118_fails_refuted (short : ℝ → ℝ) :
    (∀ d, (SpacetimePy.flat d none).repr short = .error .keyError) ∧
    (∀ d ps, (SpacetimePy.flat d (some (.array ps))).Made → ∃ ts, (SpacetimePy.flat d (some (.array ps))).repr short = .ok ts ∧
      evalText ts = if d ≤ 2 then some (.error .valueError) else none) ∧
    (∀ r m, ∃ ts, (SpacetimePy.blackHole r m).repr short = .ok ts ∧ evalText ts = some (.error .nameError)) ∧
    (∃ ts, SpacetimePy.base.repr short = .ok ts ∧ evalText ts = some (.error .typeError)) := by
  refine ⟨fun d => rfl, fun d ps hM => ⟨_, rfl, ?_⟩, fun r m => ⟨_, rfl, ?_⟩, ⟨_, rfl, ?_⟩⟩
  · have hd : 1 ≤ d ∧ ps.length = d - 1 := by
      obtain ⟨d', a, ha⟩ := hM
      unfold flatPy at ha
      split at ha
      · cases ha
      · cases a with
        | float p =>
          simp only at ha
          split at ha
          · simp only [Except.ok.injEq, SpacetimePy.flat.injEq, Option.some.injEq, PeriodAttr.array.injEq] at ha
            obtain ⟨rfl, rfl⟩ := ha
            constructor
            · omega
            · simp
          · simp at ha
        | tuple qs => simp only at ha; split at ha <;> [split at ha; skip] <;> simp at ha
        | other => simp at ha
    rw [List.append_assoc, List.append_assoc, ← List.append_assoc [Tok.name "period", Tok.op "="], arrayToks]
    have := parseArg_array (ps.map short)
    rw [List.length_map] at this
    by_cases h2 : d ≤ 2
    · rw [if_pos (by omega)] at this
      rw [eval_text _ _ _ _ this, if_pos h2]
      have h1' : ¬ ((d : ℤ) < 1) := by omega
      simp [evalArgs, evalExpr, callClass, bindArgs, bind, Except.bind, pure, Except.pure, periodArg, flatPy, h1']
    · rw [if_neg (by omega)] at this
      unfold evalText
      rw [parseCall_none _ _ _ this, if_neg h2]
      rfl
  · have : ∃ a, evalExpr a = .error .nameError ∧
        parseCall (headToks "BlackHoleSpacetime" 2 ++ [Tok.name "r_S", Tok.op "="] ++ numToks r ++ [Tok.op ",", Tok.space, Tok.name "metric", Tok.op "="] ++
        metricToks m ++ [Tok.op ")"]) = some ("BlackHoleSpacetime", [.pos (.int 2), .kw "r_S" (.num r), .kw "metric" a]) := by
      refine ⟨match m with | .eddingtonFinkelstein => .diff "Eddington" "Finkelstein" | .schwarzschild => .name "Schwarzschild", by cases m <;> rfl, ?_⟩
      simp only [List.append_assoc]
      rw [parseCall_head, noSpace_append, noSpace_append, noSpace_append, noSpace_num, parseArgs_dim]
      rw [show noSpace [Tok.name "r_S", Tok.op "="] = [.name "r_S", .op "="] from rfl,
        show noSpace [Tok.op ",", Tok.space, Tok.name "metric", Tok.op "="] = [.op ",", .name "metric", .op "="] from rfl]
      have hn : ∀ ts, parseExpr (numToks r ++ ts) = some (.num r, ts) := by
        intro ts
        unfold numToks
        split
        · simp [parseExpr, parseNum]
        · simp [parseExpr, parseNum]
      cases m <;>
      · simp only [List.append_assoc, List.cons_append, List.nil_append, metricToks, noSpace_append]
        rw [add_comm 1, parseArgs, parseArg, if_pos rfl, hn]
        simp [noSpace, parseArgs, parseArg, parseExpr]
    obtain ⟨a, h1, h2⟩ := this
    unfold evalText
    rw [h2]
    have e1 : evalExpr (.num r) = .ok (.num r) := rfl
    have e2 : evalExpr (.int 2) = .ok (.int 2) := rfl
    simp [evalArgs, h1, e1, e2, bind, Except.bind]
  · rw [eval_text _ _ _ (.star (.dict [])) (by simp [noSpace, parseArg, parseExpr, parseDict])]
    simp [evalArgs, evalExpr, callClass, bindArgs, bind, Except.bind, pure, Except.pure]

/-- **C118, exactly these texts.** For the objects the constructors return: the text evaluates to an object if and only if the spacetime is de Sitter,
anti-de Sitter or flat with a tuple of periods, and the object is then equal; two such objects with the same text are equal. -/
theorem C118_exact (short : ℝ → ℝ) (M : SpacetimePy) (hM : M.Made) :
    ((∃ ts N, M.repr short = .ok ts ∧ evalText ts = some (.ok N)) ↔
      ((∃ d r, M = .deSitter d r) ∨ (∃ d r, M = .antiDeSitter d r) ∨ ∃ d ps, M = .flat d (some (.tuple ps)))) ∧
    (∀ ts N, M.repr short = .ok ts → evalText ts = some (.ok N) → N = M) ∧
    (∀ ts N, M.repr short = .ok ts → evalText ts = some (.ok N) → ∀ M' : SpacetimePy, M'.Made → M'.repr short = .ok ts → M' = M) := by
  obtain ⟨f1, f2, f3, f4⟩ := C118_fails_refuted short
  have key : ∀ M : SpacetimePy, M.Made → ∀ ts N, M.repr short = .ok ts → evalText ts = some (.ok N) →
      ((∃ d r, M = .deSitter d r) ∨ (∃ d r, M = .antiDeSitter d r) ∨ ∃ d ps, M = .flat d (some (.tuple ps))) := by
    intro M hM ts N h1 h2
    match M, hM with
    | .base, _ =>
      obtain ⟨ts', g1, g2⟩ := f4
      rw [h1] at g1; cases g1; rw [h2] at g2; simp at g2
    | .flat d none, _ => rw [f1] at h1; cases h1
    | .flat d (some (.array ps)), hM =>
      obtain ⟨ts', g1, g2⟩ := f2 d ps hM
      rw [h1] at g1; cases g1; rw [h2] at g2
      split at g2 <;> simp at g2
    | .flat d (some (.tuple ps)), _ => exact Or.inr (Or.inr ⟨d, ps, rfl⟩)
    | .deSitter d r, _ => exact Or.inl ⟨d, r, rfl⟩
    | .antiDeSitter d r, _ => exact Or.inr (Or.inl ⟨d, r, rfl⟩)
    | .blackHole r m, _ =>
      obtain ⟨ts', g1, g2⟩ := f3 r m
      rw [h1] at g1; cases g1; rw [h2] at g2; simp at g2
  have eq : ∀ M : SpacetimePy, M.Made → ∀ ts N, M.repr short = .ok ts → evalText ts = some (.ok N) → N = M := by
    intro M hM ts N h1 h2
    obtain ⟨ts', g1, g2⟩ := C118_roundtrip short M hM (key M hM ts N h1 h2)
    rw [h1] at g1; cases g1; rw [h2] at g2
    exact Except.ok.inj (Option.some.inj g2)
  refine ⟨⟨fun ⟨ts, N, h1, h2⟩ => key M hM ts N h1 h2, fun h => ?_⟩, eq M hM, fun ts N h1 h2 M' hM' h3 => ?_⟩
  · obtain ⟨ts, h1, h2⟩ := C118_roundtrip short M hM h
    exact ⟨ts, M, h1, h2⟩
  · rw [← eq M hM ts N h1 h2, eq M' hM' ts N h3 h2]

/-- the object with the attribute is the one of the other properties -/
theorem flatPy_obj (d : ℤ) (a : PeriodArg) : (flatPy d a).map SpacetimePy.obj = (FlatSpacetime.init d a).map .flat := by
  unfold flatPy FlatSpacetime.init
  split
  · rfl
  · cases a <;> simp only <;> (try split_ifs) <;> rfl

/-! ## `str` -/

theorem digits_free (n : ℕ) : '-' ∉ (toString n).toList := by
  intro h
  have := Nat.isDigit_of_mem_toDigits (b := 10) (by norm_num) (by norm_num) (n := n) (c := '-') (by
    simpa [toString, Nat.repr] using h)
  revert this
  decide

theorem cut_eq {a b c d : List Char} (ha : '-' ∉ a) (hb : '-' ∉ b) (h : a ++ '-' :: c = b ++ '-' :: d) : a = b ∧ c = d := by
  induction a generalizing b with
  | nil =>
    cases b with
    | nil => simpa using h
    | cons x b => simp only [List.nil_append, List.cons_append, List.cons.injEq] at h; exact absurd h.1 (by rintro rfl; simp at hb)
  | cons x a ih =>
    cases b with
    | nil => simp only [List.nil_append, List.cons_append, List.cons.injEq] at h; exact absurd h.1 (by rintro rfl; simp at ha)
    | cons y b =>
      simp only [List.cons_append, List.cons.injEq] at h
      obtain ⟨h1, h2⟩ := ih (by simp at ha; exact ha.2) (by simp at hb; exact hb.2) h.2
      exact ⟨by rw [h.1, h1], h2⟩

/-- **C118, `str`.** Two spacetimes print the same with `str` exactly if they have the same dimension and are of the same class: the parameters (periods,
radius, metric) are not shown. -/
theorem C118_str (M N : SpacetimePy) : M.str = N.str ↔ M.obj.dim = N.obj.dim ∧ M.obj.name = N.obj.name := by
  constructor
  · intro h
    have h' := congrArg String.toList h
    unfold SpacetimePy.str at h'
    simp only [String.toList_append, List.append_assoc] at h'
    rw [show "-dimensional ".toList = '-' :: "dimensional ".toList from rfl, List.cons_append, List.cons_append] at h'
    obtain ⟨h1, h2⟩ := cut_eq (digits_free _) (digits_free _) h'
    refine ⟨?_, ?_⟩
    · have : toString M.obj.dim = toString N.obj.dim := String.toList_injective h1
      exact toDigits_inj' (by simpa [toString, Nat.repr] using h1)
    · have := List.append_cancel_right (List.append_cancel_left h2)
      exact String.toList_injective this
  · rintro ⟨h1, h2⟩
    unfold SpacetimePy.str
    rw [h1, h2]

/-! ## Concrete cases -/

/-- the characters of a text -/
def textOf (fmt : ℝ → String) (ts : List Tok) : String := String.join (ts.map (Tok.text fmt))

/-- the texts: `deSitterSpacetime(4, **{'r_dS': 1.5})`, `FlatSpacetime(3, period=(2, 0))`, `FlatSpacetime(3, period=[2 2])` (as written by `fmt`),
`BlackHoleSpacetime(2, r_S=0.5, metric=Eddington-Finkelstein)`, `Spacetime(2, **{})`; the objects can be made; a periodic and a non-periodic flat
spacetime have the same `str` -/
theorem C118_case (fmt : ℝ → String) :
    ((SpacetimePy.deSitter 4 1.5).Made ∧ ((SpacetimePy.deSitter 4 1.5).repr id).map (textOf fmt) = .ok ("deSitterSpacetime(4, **{'r_dS': " ++ fmt 1.5 ++ "})")) ∧
    ((SpacetimePy.flat 3 (some (.tuple [2, 0]))).Made ∧
      ((SpacetimePy.flat 3 (some (.tuple [2, 0]))).repr id).map (textOf fmt) = .ok ("FlatSpacetime(3, period=(" ++ fmt 2 ++ ", " ++ fmt 0 ++ "))")) ∧
    ((SpacetimePy.flat 3 (some (.array [2, 2]))).Made ∧
      ((SpacetimePy.flat 3 (some (.array [2, 2]))).repr id).map (textOf fmt) = .ok ("FlatSpacetime(3, period=[" ++ fmt 2 ++ " " ++ fmt 2 ++ "])")) ∧
    ((SpacetimePy.blackHole 0.5 .eddingtonFinkelstein).Made ∧ ((SpacetimePy.blackHole 0.5 .eddingtonFinkelstein).repr id).map (textOf fmt) =
      .ok ("BlackHoleSpacetime(2, r_S=" ++ fmt 0.5 ++ ", metric=Eddington-Finkelstein)")) ∧
    (SpacetimePy.base.repr id).map (textOf fmt) = .ok "Spacetime(2, **{})" ∧ SpacetimePy.base.str = "2-dimensional  spacetime" ∧
    (SpacetimePy.flat 3 none).str = "3-dimensional flat spacetime" ∧ (SpacetimePy.flat 3 (some (.tuple [2, 0]))).str = "3-dimensional flat spacetime" := by
  have n : ∀ r : ℝ, 0 ≤ r → numToks r = [.num r] := fun r hr => by simp [numToks, test, hr]
  have e1 := n 1.5 (by norm_num)
  have e2 := n 2 (by norm_num)
  have e3 := n 0 le_rfl
  have e4 := n 0.5 (by norm_num)
  have d2 : Nat.toDigits 10 2 = ['2'] := by decide
  have d3 : Nat.toDigits 10 3 = ['3'] := by decide
  have d4 : Nat.toDigits 10 4 = ['4'] := by decide
  refine ⟨⟨⟨by norm_num, by norm_num⟩, ?_⟩, ⟨⟨3, .tuple [2, 0], ?_⟩, ?_⟩, ⟨⟨3, .float 2, ?_⟩, ?_⟩, ⟨by norm_num [SpacetimePy.Made], ?_⟩, ?_, by decide, by decide,
    by decide⟩
  · simp [SpacetimePy.repr, Except.map, textOf, headToks, dictToks, e1, Tok.text, String.join, String.ext_iff, d2, d3, d4]
  · simp [flatPy]
  · simp [SpacetimePy.repr, Except.map, textOf, headToks, tupleToks, commaToks, e2, e3, Tok.text, String.join, String.ext_iff, d2, d3, d4]
  · simp [flatPy]
  · simp [SpacetimePy.repr, Except.map, textOf, headToks, arrayToks, spaceToks, e2, Tok.text, String.join, String.ext_iff, d2, d3, d4]
  · simp [SpacetimePy.repr, Except.map, textOf, headToks, metricToks, e4, Tok.text, String.join, String.ext_iff, d2, d3, d4]
  · simp [SpacetimePy.repr, Except.map, textOf, headToks, Tok.text, String.join, String.ext_iff, d2, d3, d4]

end Causets
