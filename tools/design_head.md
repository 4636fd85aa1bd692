# Formal model of c-minz/Python-causets in Lean 4

(Generated by `tools/design.py` from `tools/design_head.md`, `properties.jsonl`, `MANIFEST.json` and the citations in the model.)

## Layout

* `lean/Verif/Spec.lean`, `lean/Verif/SpecState.lean` - the small vocabulary used by the theorem statements: strict orders, covering, saturated
  paths, convexity, antichain sets, `Heap.Lt`, `Heap.Valid`, `Reachable` (all states a program can reach through the modelled API).
* `lean/Verif/Model/*.lean` - the model, function by function, each definition with a `file:lines` citation of /repo and its simplifications.
* `lean/Verif/Lemmas/*.lean` - helper lemmas (invariants of single operations, loop invariants, volumes).
* `lean/Verif/Props/*.lean` - the property theorems (`C01_...`, `C02_...`) and, beside each, an `example` or witness showing that a concrete
  non-trivial state meets the hypotheses.
* `seeded/LOG.jsonl` - wrong programs: edits of the model and the theorems that then fail to prove.
* `tools/` - generators of `properties.jsonl`, `MANIFEST.json`, this file; `coverage.py` lists which functions of /repo are cited.

## How Python is modelled

* **Events** are object identities, natural numbers (`EId`). `Heap` holds per event `label`, `_prec`, `_succ`, `_lprec`, `_lsucc` (the last two
  `Option`; `none` = attribute missing); `next` is the first unused identity. Coordinates and positions live in separate records where they are needed (no
  order function reads them).
* **Sets** are `Finset`. **Iteration over a set** has no specified order in Python: every loop over a set takes its order from an oracle
  `it : Iter` (for a calling context and a set, any duplicate-free enumeration of the set). The theorems quantify over all oracles, hence hold for every hash order.
* **References to sets** are modelled in `Model/Objects.lean` (set objects with identities, `for` loops that raise RuntimeError if the size of the set changes); everywhere else sets are values, which C96 justifies.
* **Mutation** is state passing; **exceptions** are values of `Err`, and the state at the exception point is kept (a Python exception does not roll back).
* **while loops and recursion** take fuel. Exhausted fuel is the separate error `outOfFuel` (for recursion: RecursionError). The theorems
  conclude a result that is not this error, so they include termination; where Python's recursion limit matters (C31), the bound on the depth is part of the theorem.
* **Numbers**: Python ints are exact. Floats are exact reals (`ℕ∞` for ranks with infinity, `ℚ` or `ℝ` for coordinates): rounding, NaN, signed zeros are not modelled — except in C104, where the causality functions are modelled with a rounding to binary64 after every operation (with overflow, inf and NaN in C116; a zero has no sign), and in C115, C119 and C120, where the coordinates of sprinkles are in single precision.
  int64 wrap-around is modelled where a property is about it (C50).
* **numpy, itertools, matplotlib** are replaced by their documentation: argsort is some sorting permutation, `genfromtxt` squeezes, `np.empty` is arbitrary
  memory (a parameter), `arctan2` is `Complex.arg`, random draws are arbitrary values in the documented range (theorems hold for every draw). Nothing is drawn: a plot is the list of the coordinates and parameters handed to matplotlib.

## Trusted base

* The Lean 4.33.0 kernel. Every theorem depends on no axioms other than `propext`, `Classical.choice`, `Quot.sound` (`#print axioms`; `vcheck` confirms this).
  No axiom of our own, no compiled evaluation.
* The definitions of the model as a faithful rendering of the cited lines (compared by reading; nothing was run), and the simplifications below.
* The specifications in `Spec.lean`, `SpecState.lean` and beside the theorems, and Mathlib's definitions (Lebesgue measure, real analysis).

## Simplifications (also in the comments of the definitions)

* Recursion limit: fuel instead of Python's stack; thresholds like `_eps` are parameters; `log 0` at a horizon is Lean's (0), theorems exclude these points (`C44_EF_horizon`, `C44_Schwarzschild_horizon` include them, with numpy's -inf and nan).
* `np.empty` contents are a parameter. Zero normal vectors are excluded when sprinkling in balls; they have probability 0 (`C101_almost_surely`).
* matplotlib: no drawing, colours are strings; colour dictionaries are not mutated by the user behind the API.
* Plotting takes event coordinates as a function; the plotter may report another error than Python if several errors are possible.
* Rows of coordinate lists shorter than the dimension are read as 0 where the code raises IndexError; coordinate arrays of other `ndim` are not modelled.
* User-defined subclasses of `Spacetime` appear only as an arbitrary causality function. Plotted dimensions of cones are distinct and valid.
* `ReadInt`, `ArgSort` are predicates of documented behaviour. The event created and dropped in layeredPermutations is not modelled.
* The main model passes sets by value. `Model/Objects.lean` models references to set objects for events and the basic operations of causets; C96 proves that values suffice as long as callers do not mutate the internal sets returned by `Past`, `Future`, `LinkPast`, `LinkFuture` (C97 says what happens otherwise).

## Not expressible in this model

Floating-point rounding error outside of the causality functions (C104, C115, C119, C120) and the coordinates of sprinkles in boxes (C115), the pixels of a plot, speed and memory. (The distribution of sprinkled points is expressed: C101, C102; that numpy's generator has the specified distribution is an assumption there, `RandomDraws`, `PoissonDraw`.)

## Disagreements between the code and its documentation or the property a user expects

Each is proved as a theorem `..._refuted` (or named in the property). Corrected code would make the full property provable:

* `CausetEvent.LinkConeCard` uses bitwise `&` between two cardinalities (C06). `disjoin` raises for an event without link memory and leaves the link memory of others wrong (C07, C08). The
  constructor with past and future not related to each other breaks transitivity (C01, proviso necessary). Events report `isEmbedded` = True when new (C61).
* `Causet`: `PastOf/FutureOf/ConeOf(..., intersect=True)` always empty (C25); `__rsub__` is not the reflected difference (C20); `isChain()` without arguments needs a closed causet (C21); `isPath` accepts crowns (C22); `merge` leaves stale
  links (C18); `link` on causets that are not closed (C38); `add/discard` with `unlink=True` raise (C19); `layered` needs convex sets (C30); layer 0 and rank 0 of a set that is not an antichain are its future end, so `Layers` and `Ranks` are not symmetric under time reversal (C110); `FromPastMatrix` misses long loops and needs sorted matrices (C15, C16); `Antipaths` may not end or raise (C66); the size of `CentralAntichain` depends on the iteration order of sets (C91); `merge` and `Antipaths` exhaust iterators given as `Iterable`, `C.discard(C)` raises RuntimeError (C92); `link` that raises leaves wrong link memory, `relate` that raises has lost the order (C94); `Past`, `Future`, `LinkPast`, `LinkFuture` return the internal sets, which change later and through which a program can destroy the order (C97);
  `permuted` returns too few numbers or raises TypeError (C59); `findClosedFences` never finds a new fence (C60); `AntichainPermutations` yields nothing for a single event, `layeredPermutations` then raises RuntimeError (C80); `list(layeredPermutations(C))` contains copies of one combination, its lists are no permutations of the layers, NameError for the empty set (C106); `permuted_old` returns an event twice and another not at all (C107); `AntichainPermutations_old` never yields and never ends for three or more events and raises IndexError with a past layer (C108); CSV of fewer than two events cannot be read (C62); `plotDiagram` uses the inverse of the documented permutation (C86).
* `EmbeddedCauset`, `SprinkledCauset`: labels not unique after discard (C46); intensity wrong after a call that raises, `discard` on an empty sprinkle divides by zero (C47); bicones are not sprinkled, `np.empty` is returned (C48, C82); `LengthScale` of embedded causets (C71); rows of coordinate lists not checked (C81); `FromPermutation` accepts lists that are no permutations and returns uninitialised coordinates or events outside the shape (C100).
* `isCausal_BH2D` has no tolerance: near the singularity the light cone is narrower than the rounding errors and all relations are lost (C104).
* Sprinkled coordinates are `float32`, but the tolerance of the causality functions is `1e-12`, far below the rounding errors: in three and more dimensions relations are lost, and a sprinkle can be an intransitive relation (C115); with periods they are lost in two dimensions, too (C119).
* Overflow: in three and more dimensions far spacelike points with coordinates from about `2^512` on are related (inf >= inf), de Sitter causality raises OverflowError for times beyond about 355 radii, anti-de Sitter causality ValueError for infinite times (C116).
* `sprinkle` and `intensify` with a region of another dimension: one-dimensional boxes and balls and two-dimensional cylinders are accepted (NumPy repeats the coordinate), the others raise ValueError after the intensity was increased, so that `Density` and `LengthScale` are those of events that do not exist (C121).
* The tolerance `1e-12` is an absolute number added to squared distances: in large units (e.g. light seconds for distances of metres) all points are related (C123), and the direction of the relation of points within the tolerance depends on the reference frame (C122). In anti-de Sitter spacetime the direction of all relations depends on the origin of time (C122).
* `EmbeddedCauset` accepts a list of rows of the wrong length: in three and more dimensions they are ordered as points of another dimension, otherwise IndexError or a broadcasting ValueError comes from inside `relate`, which has then already erased the order (C117).
* The tolerance of flat spacetimes is added to the distance in two dimensions and to its square in three and more, so that points of a plane may be related in three dimensions but not in two (C126).
* `repr` of a flat spacetime with a float as period, of a black hole and of `Spacetime()` cannot be evaluated (C118; for non-periodic flat spacetimes it raises, C67).
* `CausetEvent.__str__`/`__repr__` hide the labels 0 and '' and do not escape quotes in labels (C114).
* `BlackHoleSpacetime.Causality` (Eddington-Finkelstein): two points on the horizon give nan, so that they are never related although the horizon is a light ray (C44).
* `DefaultShape`: the unit cube for periodic flat spacetimes whatever the periods, so that points are covered twice or left out; the default cylinders of de Sitter (alpha > 1), anti-de Sitter and black hole spacetimes are not causally convex (C113).
* Spacetimes: flat causality with tolerance is not transitive, periodic causality outside one period (C43); anti-de Sitter not transitive (C44); `spacetime='Schwarzschild'` gives the Eddington-Finkelstein metric (C99); repr of a non-periodic flat spacetime KeyError (C67); 3-D flat cones misplaced unless time is the last axis (C83); de Sitter cones off the plotted plane (C84).
* Shapes: hollow cylinder volume (C53); negative hollow leaves rows uninitialised (C55); surfaces of cylinders and cones are rotated after centring (C69), so plots with time first are misplaced (C70); repr raises AttributeError (C87); `plot` of a hollow bicone in 3-D multiplies the stored radius in place (C88).
* Calculations: int64 overflow in `HarmonicNumbers` (C49, C50); Newton's documented interval (C51).
* Plotting and colours: 'lime' is not a hex colour as the others (C73); documented half time of exponential fading, intensity fading with negative depth (C74); link order within tolerance (C76); automatic shape has no effect and `axislim='shape'` raises TypeError (C77); `conetimefade=''` and `timedepth` with `links=False` raise (C78); `linkgapsize` ignored with `links=True` (C79); repeated events raise IndexError (C57); all calls of a plotting function return the same dictionary of handles, and a call raises IndexError if events became linked after the set-up (C103).
