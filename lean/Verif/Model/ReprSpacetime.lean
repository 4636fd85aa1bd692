import Verif.Model.EmbInit

/-!
# `str` and `repr` of spacetimes, and evaluating the text

The text of `repr` is modelled as the list of its Python tokens; `Tok.text` gives the characters.  That Python's tokenizer finds the same tokens in the
characters, and that the text of a number is read as the same number (`repr` of a float is exact), is part of the assumptions about Python.
-/

namespace Causets

/-- tokens of Python source text (a number token is never negative) -/
inductive Tok
  | space
  | name (s : String)
  | str (s : String)
  | int (n : ℕ)
  | num (r : ℝ)
  | op (s : String)

/-- the characters, for a way `fmt` to write numbers -/
def Tok.text (fmt : ℝ → String) : Tok → String
  | .space => " "
  | .name s => s
  | .str s => "'" ++ s ++ "'"
  | .int n => toString n
  | .num r => fmt r
  | .op s => s

/-- the attribute `_params['period']` of a flat spacetime, spacetimes.py:263-278: for a float a NumPy array, for a tuple the tuple -/
inductive PeriodAttr
  | array (ps : List ℝ)
  | tuple (ps : List ℝ)

/-- a spacetime object with what is printed about it -/
inductive SpacetimePy
  | base
  | flat (dim : ℕ) (period : Option PeriodAttr)
  | deSitter (dim : ℕ) (r : ℝ)
  | antiDeSitter (dim : ℕ) (r : ℝ)
  | blackHole (r : ℝ) (m : BHMetric)

/-- the numbers of the periods -/
def PeriodAttr.numbers : PeriodAttr → List ℝ
  | .array ps => ps
  | .tuple ps => ps

/-- the object of Model/EmbInit.lean -/
def SpacetimePy.obj : SpacetimePy → SpacetimeObj
  | .base => .base
  | .flat d none => .flat ⟨d, false, none⟩
  | .flat d (some a) => .flat ⟨d, true, some a.numbers⟩
  | .deSitter d r => .deSitter d r
  | .antiDeSitter d r => .antiDeSitter d r
  | .blackHole r m => .blackHole r m

open Classical in
/-- `FlatSpacetime.__init__`, spacetimes.py:254-278, with the type of the attribute -/
noncomputable def flatPy (dim : ℤ) (period : PeriodArg) : Except Err SpacetimePy :=
  if dim < 1 then .error .valueError
  else match period with
    | .float p => if p > 0 then .ok (.flat dim.toNat (some (.array (List.replicate (dim.toNat - 1) p)))) else .ok (.flat dim.toNat none)
    | .tuple ps =>
      if (ps.length : ℤ) = dim - 1 then
        if ∃ p ∈ ps, p > 0 then .ok (.flat dim.toNat (some (.tuple ps))) else .ok (.flat dim.toNat none)
      else .error .valueError
    | .other => .error .valueError

/-- a number in source text -/
noncomputable def numToks (r : ℝ) : List Tok := if test (r < 0) then [.op "-", .num (-r)] else [.num r]

/-- the text of the entries of a tuple: `a, b, c` -/
noncomputable def commaToks : List ℝ → List Tok
  | [] => []
  | [r] => numToks r
  | r :: r' :: rs => numToks r ++ [.op ",", .space] ++ commaToks (r' :: rs)

/-- `str` of a tuple of numbers, in spacetimes.py:282 -/
noncomputable def tupleToks : List ℝ → List Tok
  | [] => [.op "(", .op ")"]
  | [r] => [.op "("] ++ numToks r ++ [.op ",", .op ")"]
  | rs => [.op "("] ++ commaToks rs ++ [.op ")"]

/-- the text of the entries of a NumPy array: without commas -/
noncomputable def spaceToks : List ℝ → List Tok
  | [] => []
  | [r] => numToks r
  | r :: r' :: rs => numToks r ++ [.space] ++ spaceToks (r' :: rs)

/-- `str` of a NumPy array of numbers, in spacetimes.py:282; `short` is the number with the digits that NumPy prints (8 by default).  Simplification: more
than 1000 entries are abbreviated by NumPy. -/
noncomputable def arrayToks (short : ℝ → ℝ) (ps : List ℝ) : List Tok := [.op "["] ++ spaceToks (ps.map short) ++ [.op "]"]

/-- `{'key': r}`, in spacetimes.py:44 -/
noncomputable def dictToks (key : String) (r : ℝ) : List Tok := [.op "{", .str key, .op ":", .space] ++ numToks r ++ [.op "}"]

/-- `Class(dim, ` -/
def headToks (cls : String) (dim : ℕ) : List Tok := [.name cls, .op "(", .int dim, .op ",", .space]

/-- the tokens of the text `metric=...` without quotes, spacetimes.py:691: `Eddington-Finkelstein` is a difference of two names -/
def metricToks : BHMetric → List Tok
  | .eddingtonFinkelstein => [.name "Eddington", .op "-", .name "Finkelstein"]
  | .schwarzschild => [.name "Schwarzschild"]

/-- `__repr__`: `Spacetime`, spacetimes.py:43-44 (also used by (anti-)de Sitter, with `_params` set in 538 and 633); `FlatSpacetime`, 280-282
(`Parameter`, 67-71, raises KeyError if there is no period); `BlackHoleSpacetime`, 689-691 -/
noncomputable def SpacetimePy.repr (short : ℝ → ℝ) : SpacetimePy → Except Err (List Tok)
  | .base => .ok (headToks "Spacetime" 2 ++ [.op "**", .op "{", .op "}", .op ")"])
  | .flat _ none => .error .keyError
  | .flat d (some (.array ps)) => .ok (headToks "FlatSpacetime" d ++ [.name "period", .op "="] ++ arrayToks short ps ++ [.op ")"])
  | .flat d (some (.tuple ps)) => .ok (headToks "FlatSpacetime" d ++ [.name "period", .op "="] ++ tupleToks ps ++ [.op ")"])
  | .deSitter d r => .ok (headToks "deSitterSpacetime" d ++ [.op "**"] ++ dictToks "r_dS" r ++ [.op ")"])
  | .antiDeSitter d r => .ok (headToks "AntideSitterSpacetime" d ++ [.op "**"] ++ dictToks "r_AdS" r ++ [.op ")"])
  | .blackHole r m => .ok (headToks "BlackHoleSpacetime" 2 ++ [.name "r_S", .op "="] ++ numToks r ++ [.op ",", .space, .name "metric", .op "="] ++
      metricToks m ++ [.op ")"])

/-- `__str__`, spacetimes.py:40-41 -/
def SpacetimePy.str (M : SpacetimePy) : String := toString M.obj.dim ++ "-dimensional " ++ M.obj.name ++ " spacetime"

/-! ## Python: parsing and evaluating a call of a constructor -/

/-- the expressions that occur as arguments -/
inductive PyExpr
  | int (n : ℕ)
  | num (r : ℝ)
  | str (s : String)
  | name (s : String)
  | diff (a b : String)
  | tuple (l : List ℝ)
  | list (l : List ℝ)
  | dict (l : List (String × ℝ))

/-- an argument of a call -/
inductive PyArg
  | pos (e : PyExpr)
  | kw (k : String) (e : PyExpr)
  | star (e : PyExpr)

/-- a number with an optional sign -/
noncomputable def parseNum : List Tok → Option (ℝ × List Tok)
  | .num r :: ts => some (r, ts)
  | .op s :: .num r :: ts => if s = "-" then some (-r, ts) else none
  | _ => none

/-- entries separated by commas up to the closing bracket; also whether there was a comma (for the difference of `(x)` and `(x,)`).  `fuel` bounds the
number of entries. -/
noncomputable def parseEntries (close : String) : ℕ → List Tok → Option (List ℝ × Bool × List Tok)
  | 0, _ => none
  | fuel + 1, ts => match ts with
    | .op s :: rest => if s = close then some ([], false, rest) else parseEntry fuel ts
    | _ => parseEntry fuel ts
where
  /-- one entry and the rest -/
  parseEntry (fuel : ℕ) (ts : List Tok) : Option (List ℝ × Bool × List Tok) := match parseNum ts with
    | none => none
    | some (r, .op s :: rest) =>
      if s = "," then match parseEntries close fuel rest with
        | none => none
        | some (rs, _, rest') => some (r :: rs, true, rest')
      else if s = close then some ([r], false, rest) else none
    | some _ => none

/-- a dictionary with at most one entry, behind the opening bracket -/
noncomputable def parseDict : List Tok → Option (PyExpr × List Tok)
  | .op c :: rest => if c = "}" then some (.dict [], rest) else none
  | .str k :: .op c :: rest => if c = ":" then match parseNum rest with
      | some (r, .op e :: rest') => if e = "}" then some (.dict [(k, r)], rest') else none
      | _ => none
    else none
  | _ => none

/-- an expression -/
noncomputable def parseExpr : List Tok → Option (PyExpr × List Tok)
  | .int n :: ts => some (.int n, ts)
  | .str s :: ts => some (.str s, ts)
  | .name a :: .op s :: .name b :: ts => if s = "-" then some (.diff a b, ts) else some (.name a, .op s :: .name b :: ts)
  | .name a :: ts => some (.name a, ts)
  | .op s :: ts =>
    if s = "(" then match parseEntries ")" (ts.length + 1) ts with
      | none => none
      | some ([r], false, rest) => some (.num r, rest)
      | some (l, _, rest) => some (.tuple l, rest)
    else if s = "[" then match parseEntries "]" (ts.length + 1) ts with
      | none => none
      | some (l, _, rest) => some (.list l, rest)
    else if s = "{" then parseDict ts
    else match parseNum (.op s :: ts) with
      | none => none
      | some (r, rest) => some (.num r, rest)
  | ts => match parseNum ts with
    | none => none
    | some (r, rest) => some (.num r, rest)

/-- an argument: `k=e`, `**e` or `e` -/
noncomputable def parseArg : List Tok → Option (PyArg × List Tok)
  | .op s :: ts => if s = "**" then (parseExpr ts).map (fun p => (.star p.1, p.2)) else (parseExpr (.op s :: ts)).map (fun p => (.pos p.1, p.2))
  | .name k :: .op s :: ts =>
    if s = "=" then (parseExpr ts).map (fun p => (.kw k p.1, p.2)) else (parseExpr (.name k :: .op s :: ts)).map (fun p => (.pos p.1, p.2))
  | ts => (parseExpr ts).map (fun p => (.pos p.1, p.2))

/-- arguments separated by commas up to `)` at the end of the text -/
noncomputable def parseArgs : ℕ → List Tok → Option (List PyArg)
  | 0, _ => none
  | fuel + 1, ts => match parseArg ts with
    | none => none
    | some (a, [.op s]) => if s = ")" then some [a] else none
    | some (a, .op s :: rest) => if s = "," then (parseArgs fuel rest).map (a :: ·) else none
    | some _ => none

/-- the tokens without blanks -/
def noSpace (ts : List Tok) : List Tok := ts.filter (fun t => match t with | .space => false | _ => true)

/-- the text as a call `f(arguments)` with at least one argument; blanks between tokens have no meaning -/
noncomputable def parseCall (ts : List Tok) : Option (String × List PyArg) := match noSpace ts with
  | .name f :: .op s :: rest => if s = "(" then (parseArgs rest.length rest).map (f, ·) else none
  | _ => none

/-- an evaluated argument -/
inductive PyValue
  | int (n : ℕ)
  | num (r : ℝ)
  | str (s : String)
  | tuple (l : List ℝ)
  | list (l : List ℝ)
  | dict (l : List (String × ℝ))

/-- the value of an expression if only the classes of the module are defined (none of which is used as an argument): a name that is not defined raises NameError -/
def evalExpr : PyExpr → Except Err PyValue
  | .int n => .ok (.int n)
  | .num r => .ok (.num r)
  | .str s => .ok (.str s)
  | .name _ => .error .nameError
  | .diff _ _ => .error .nameError
  | .tuple l => .ok (.tuple l)
  | .list l => .ok (.list l)
  | .dict l => .ok (.dict l)

/-- the arguments of a call: positional ones and keywords (with those of `**{...}`) -/
def evalArgs : List PyArg → Except Err (List PyValue × List (String × PyValue))
  | [] => .ok ([], [])
  | .pos e :: as => do
    let v ← evalExpr e
    let r ← evalArgs as
    return (v :: r.1, r.2)
  | .kw k e :: as => do
    let v ← evalExpr e
    let r ← evalArgs as
    return (r.1, (k, v) :: r.2)
  | .star e :: as => do
    let v ← evalExpr e
    let r ← evalArgs as
    match v with
    | .dict l => return (r.1, l.map (fun p => (p.1, .num p.2)) ++ r.2)
    | _ => .error .typeError

/-- Python's binding of arguments to parameters: TypeError for too many, for unknown and for repeated ones; a parameter without argument is `none` -/
def bindArgs (params : List String) (pos : List PyValue) (kw : List (String × PyValue)) : Except Err (List (Option PyValue)) :=
  if params.length < pos.length then .error .typeError
  else if kw.any (fun p => decide (p.1 ∉ params.drop pos.length)) then .error .typeError
  else if ¬ (kw.map Prod.fst).Nodup then .error .typeError
  else .ok (pos.map some ++ (params.drop pos.length).map (fun n => kw.lookup n))

/-- a positive number as parameter, with a default -/
def numArg (default : ℝ) : Option PyValue → Except Err ℝ
  | none => .ok default
  | some (.num r) => .ok r
  | some (.int n) => .ok n
  | some _ => .error .typeError

/-- the argument `period`, spacetimes.py:255 and 263-274 -/
def periodArg : Option PyValue → PeriodArg
  | none => .float 0
  | some (.num r) => .float r
  | some (.tuple l) => .tuple l
  | some _ => .other

/-- the argument `metric`, spacetimes.py:665 and 678-681 (`none`: not implemented) -/
def metricArg : Option PyValue → Option BHMetric
  | none => some .eddingtonFinkelstein
  | some (.str s) => if s = "Eddington-Finkelstein" then some .eddingtonFinkelstein else if s = "Schwarzschild" then some .schwarzschild else none
  | some _ => none

/-- calling a class of the module: `Spacetime.__init__`, spacetimes.py:34-38; `FlatSpacetime.__init__`, 254-278; `deSitterSpacetime.__init__`, 529-541;
`AntideSitterSpacetime.__init__`, 625-636; `BlackHoleSpacetime.__init__`, 664-687 -/
noncomputable def callClass (f : String) (pos : List PyValue) (kw : List (String × PyValue)) : Except Err SpacetimePy :=
  if f = "Spacetime" then do
    let _ ← bindArgs [] pos kw
    return .base
  else if f = "FlatSpacetime" then do
    match ← bindArgs ["dim", "period"] pos kw with
    | [some (.int d), p] => flatPy d (periodArg p)
    | _ => .error .typeError
  else if f = "deSitterSpacetime" then do
    match ← bindArgs ["dim", "r_dS"] pos kw with
    | [some (.int d), a] =>
      let r ← numArg 1 a
      return .deSitter (← dSInit d r).1 r
    | _ => .error .typeError
  else if f = "AntideSitterSpacetime" then do
    match ← bindArgs ["dim", "r_AdS"] pos kw with
    | [some (.int d), a] =>
      let r ← numArg 0.5 a
      return .antiDeSitter (← dSInit d r).1 r
    | _ => .error .typeError
  else if f = "BlackHoleSpacetime" then do
    match ← bindArgs ["dim", "r_S", "metric"] pos kw with
    | [some (.int d), a, m] =>
      let r ← numArg 0.5 a
      let p ← bhInit d r (metricArg m)
      return .blackHole p.1 p.2
    | _ => .error .typeError
  else .error .nameError

/-- what `eval(text)` does: `none` is SyntaxError -/
noncomputable def evalText (ts : List Tok) : Option (Except Err SpacetimePy) := (parseCall ts).map fun p => do
  let a ← evalArgs p.2
  callClass p.1 a.1 a.2

end Causets
