# Formal model of c-minz/Python-causets in Lean 4

(Generated by `tools/design.py` from `tools/design_head.md`, `properties.jsonl`, `MANIFEST.json` and the citations in the model.)

## Layout

* `lean/Verif/Spec.lean`, `lean/Verif/SpecState.lean` - the small vocabulary used by the theorem statements: strict orders, covering, saturated
  paths, convexity, antichain sets, `Heap.Lt`, `Heap.Valid`, `Reachable` (all states a program can reach through the modelled API).
* `lean/Verif/Model/*.lean` - the model, function by function, each definition with a `file:lines` citation of /repo and its simplifications.
* `lean/Verif/Lemmas/*.lean` - helper lemmas (invariants of single operations, loop invariants, volumes).
* `lean/Verif/Props/*.lean` - the property theorems (`C01_...`, `C02_...`) and, beside each, an `example` or witness showing that a concrete
  non-trivial state meets the hypotheses.
* `seeded/LOG.jsonl` - wrong programs: edits of the model and the theorems that then fail to prove.
* `tools/` - generators of `properties.jsonl`, `MANIFEST.json`, this file; `coverage.py` lists which functions of /repo are cited.

## How Python is modelled

* **Events** are object identities, natural numbers (`EId`). `Heap` holds per event `label`, `_prec`, `_succ`, `_lprec`, `_lsucc` (the last two
  `Option`; `none` = attribute missing); `next` is the first unused identity. Coordinates and positions live in separate records where they are needed (no
  order function reads them).
* **Sets** are `Finset`. **Iteration over a set** has no specified order in Python: every loop over a set takes its order from an oracle
  `it : Iter` (for a calling context and a set, any duplicate-free enumeration of the set). The theorems quantify over all oracles, hence hold for every hash order.
* **References to sets** are modelled in `Model/Objects.lean` (set objects with identities, `for` loops that raise RuntimeError if the size of the set changes); everywhere else sets are values, which C96 justifies.
* **Mutation** is state passing; **exceptions** are values of `Err`, and the state at the exception point is kept (a Python exception does not roll back).
* **while loops and recursion** take fuel. Exhausted fuel is the separate error `outOfFuel` (for recursion: RecursionError). The theorems
  conclude a result that is not this error, so they include termination; where Python's recursion limit matters (C31), the bound on the depth is part of the theorem.
* **Numbers**: Python ints are exact. Floats are exact reals (`ℕ∞` for ranks with infinity, `ℚ` or `ℝ` for coordinates): rounding, NaN, signed zeros are not modelled — except in C104, where the causality functions are modelled with a rounding to binary64 after every operation (with overflow, inf and NaN in C116; a zero has no sign), and in C115, C119 and C120, where the coordinates of sprinkles are in single precision.
  int64 wrap-around is modelled where a property is about it (C50).
* **numpy, itertools, matplotlib** are replaced by their documentation: argsort is some sorting permutation, `genfromtxt` squeezes, `np.empty` is arbitrary
  memory (a parameter), `arctan2` is `Complex.arg`, random draws are arbitrary values in the documented range (theorems hold for every draw). Nothing is drawn: a plot is the list of the coordinates and parameters handed to matplotlib.

## Trusted base

* The Lean 4.33.0 kernel. Every theorem depends on no axioms other than `propext`, `Classical.choice`, `Quot.sound` (`#print axioms`; `vcheck` confirms this).
  No axiom of our own, no compiled evaluation.
* The definitions of the model as a faithful rendering of the cited lines (compared by reading; nothing was run), and the simplifications below.
* The specifications in `Spec.lean`, `SpecState.lean` and beside the theorems, and Mathlib's definitions (Lebesgue measure, real analysis).

## Simplifications (also in the comments of the definitions)

* Recursion limit: fuel instead of Python's stack; thresholds like `_eps` are parameters; `log 0` at a horizon is Lean's (0), theorems exclude these points (`C44_EF_horizon`, `C44_Schwarzschild_horizon` include them, with numpy's -inf and nan).
* `np.empty` contents are a parameter. Zero normal vectors are excluded when sprinkling in balls; they have probability 0 (`C101_almost_surely`).
* matplotlib: no drawing, colours are strings; colour dictionaries are not mutated by the user behind the API.
* Plotting takes event coordinates as a function; the plotter may report another error than Python if several errors are possible.
* Rows of coordinate lists shorter than the dimension are read as 0 where the code raises IndexError; coordinate arrays of other `ndim` are not modelled.
* User-defined subclasses of `Spacetime` appear only as an arbitrary causality function. Plotted dimensions of cones are distinct and valid.
* `ReadInt`, `ArgSort` are predicates of documented behaviour. The event created and dropped in layeredPermutations is not modelled.
* The main model passes sets by value. `Model/Objects.lean` models references to set objects for events and the basic operations of causets; C96 proves that values suffice as long as callers do not mutate the internal sets returned by `Past`, `Future`, `LinkPast`, `LinkFuture` (C97 says what happens otherwise).

## Not expressible in this model

Floating-point rounding error outside of the causality functions (C104, C115, C119, C120) and the coordinates of sprinkles in boxes (C115), the pixels of a plot, speed and memory. (The distribution of sprinkled points is expressed: C101, C102; that numpy's generator has the specified distribution is an assumption there, `RandomDraws`, `PoissonDraw`.)

## Disagreements between the code and its documentation or the property a user expects

Each is proved as a theorem `..._refuted` (or named in the property). Corrected code would make the full property provable:

* `CausetEvent.LinkConeCard` uses bitwise `&` between two cardinalities (C06). `disjoin` raises for an event without link memory and leaves the link memory of others wrong (C07, C08). The
  constructor with past and future not related to each other breaks transitivity (C01, proviso necessary). Events report `isEmbedded` = True when new (C61).
* `Causet`: `PastOf/FutureOf/ConeOf(..., intersect=True)` always empty (C25); `__rsub__` is not the reflected difference (C20); `isChain()` without arguments needs a closed causet (C21); `isPath` accepts crowns (C22); `merge` leaves stale
  links (C18); `link` on causets that are not closed (C38); `add/discard` with `unlink=True` raise (C19); `layered` needs convex sets (C30); layer 0 and rank 0 of a set that is not an antichain are its future end, so `Layers` and `Ranks` are not symmetric under time reversal (C110); `FromPastMatrix` misses long loops and needs sorted matrices (C15, C16); `Antipaths` may not end or raise (C66); the size of `CentralAntichain` depends on the iteration order of sets (C91); `merge` and `Antipaths` exhaust iterators given as `Iterable`, `C.discard(C)` raises RuntimeError (C92); `link` that raises leaves wrong link memory, `relate` that raises has lost the order (C94); `Past`, `Future`, `LinkPast`, `LinkFuture` return the internal sets, which change later and through which a program can destroy the order (C97);
  `permuted` returns too few numbers or raises TypeError (C59); `findClosedFences` never finds a new fence (C60); `AntichainPermutations` yields nothing for a single event, `layeredPermutations` then raises RuntimeError (C80); `list(layeredPermutations(C))` contains copies of one combination, its lists are no permutations of the layers, NameError for the empty set (C106); `permuted_old` returns an event twice and another not at all (C107); `AntichainPermutations_old` never yields and never ends for three or more events and raises IndexError with a past layer (C108); CSV of fewer than two events cannot be read (C62); `plotDiagram` uses the inverse of the documented permutation (C86).
* `EmbeddedCauset`, `SprinkledCauset`: labels not unique after discard (C46); intensity wrong after a call that raises, `discard` on an empty sprinkle divides by zero (C47); bicones are not sprinkled, `np.empty` is returned (C48, C82); `LengthScale` of embedded causets (C71); rows of coordinate lists not checked (C81); `FromPermutation` accepts lists that are no permutations and returns uninitialised coordinates or events outside the shape (C100).
* `isCausal_BH2D` has no tolerance: near the singularity the light cone is narrower than the rounding errors and all relations are lost (C104).
* Sprinkled coordinates are `float32`, but the tolerance of the causality functions is `1e-12`, far below the rounding errors: in three and more dimensions relations are lost, and a sprinkle can be an intransitive relation (C115); with periods they are lost in two dimensions, too (C119).
* Overflow: in three and more dimensions far spacelike points with coordinates from about `2^512` on are related (inf >= inf), de Sitter causality raises OverflowError for times beyond about 355 radii, anti-de Sitter causality ValueError for infinite times (C116).
* `sprinkle` and `intensify` with a region of another dimension: one-dimensional boxes and balls and two-dimensional cylinders are accepted (NumPy repeats the coordinate), the others raise ValueError after the intensity was increased, so that `Density` and `LengthScale` are those of events that do not exist (C121).
* The tolerance `1e-12` is an absolute number added to squared distances: in large units (e.g. light seconds for distances of metres) all points are related (C123), and the direction of the relation of points within the tolerance depends on the reference frame (C122). In anti-de Sitter spacetime the direction of all relations depends on the origin of time (C122).
* `EmbeddedCauset` accepts a list of rows of the wrong length: in three and more dimensions they are ordered as points of another dimension, otherwise IndexError or a broadcasting ValueError comes from inside `relate`, which has then already erased the order (C117).
* The tolerance of flat spacetimes is added to the distance in two dimensions and to its square in three and more, so that points of a plane may be related in three dimensions but not in two (C126).
* `repr` of a flat spacetime with a float as period, of a black hole and of `Spacetime()` cannot be evaluated (C118; for non-periodic flat spacetimes it raises, C67).
* `CausetEvent.__str__`/`__repr__` hide the labels 0 and '' and do not escape quotes in labels (C114).
* `BlackHoleSpacetime.Causality` (Eddington-Finkelstein): two points on the horizon give nan, so that they are never related although the horizon is a light ray (C44).
* `DefaultShape`: the unit cube for periodic flat spacetimes whatever the periods, so that points are covered twice or left out; the default cylinders of de Sitter (alpha > 1), anti-de Sitter and black hole spacetimes are not causally convex (C113).
* Spacetimes: flat causality with tolerance is not transitive, periodic causality outside one period (C43); anti-de Sitter not transitive (C44); `spacetime='Schwarzschild'` gives the Eddington-Finkelstein metric (C99); repr of a non-periodic flat spacetime KeyError (C67); 3-D flat cones misplaced unless time is the last axis (C83); de Sitter cones off the plotted plane (C84).
* Shapes: hollow cylinder volume (C53); negative hollow leaves rows uninitialised (C55); surfaces of cylinders and cones are rotated after centring (C69), so plots with time first are misplaced (C70); repr raises AttributeError (C87); `plot` of a hollow bicone in 3-D multiplies the stored radius in place (C88).
* Calculations: int64 overflow in `HarmonicNumbers` (C49, C50); Newton's documented interval (C51).
* Plotting and colours: 'lime' is not a hex colour as the others (C73); documented half time of exponential fading, intensity fading with negative depth (C74); link order within tolerance (C76); automatic shape has no effect and `axislim='shape'` raises TypeError (C77); `conetimefade=''` and `timedepth` with `links=False` raise (C78); `linkgapsize` ignored with `links=True` (C79); repeated events raise IndexError (C57); all calls of a plotting function return the same dictionary of handles, and a call raises IndexError if events became linked after the set-up (C103).


## Plan and status per property

Full statements: `properties.jsonl`. "refuted" in a theorem name: the negation of (a part of) the property, proved with a witness; such a property has the status partial.

* **C01** Events always form a strict partial order with mirrored past and future - *proved* (Props/Events.lean). `Heap.Valid` (ids bounded, past and future mirrored, irreflexive, transitive) is an invariant of every operation; induction over histories (`Reachable`). Theorems: `Causets.C01_reachable_valid`, `Causets.C01_proviso_necessary`, `Causets.C01_refuted_without_proviso`. Proved for every history (also disjoin, merge, Causet.link, add, discard). Without the proviso transitivity fails: proved too.
* **C02** The constructor adds exactly the relations it is asked for - *proved* (Props/Events.lean). Case analysis of the constructor on a valid heap; the relations after it are described by a set equation. Theorems: `Causets.C02_constructor_relations`.
* **C03** Link queries are independent of when links were cached - *proved* (Props/Events.lean). Every cache operation keeps `CacheOK` (a cache that exists is the covering relation); all link queries return the covering relation, hence the same with any subset of caches. Theorems: `Causets.C03_link_queries`, `Causets.C03_independent_of_caching`.
* **C04** Any two events are in exactly one causal relationship - *proved* (Props/Events.lean). From validity: exactly one of <, =, >, spacelike; the comparison methods decide them. Theorems: `Causets.C04_trichotomy`.
* **C05** Cone and spacelike cardinalities count the corresponding sets - *proved* (Props/Events.lean). Cardinalities of the sets returned, by finite set arithmetic on valid heaps. Theorems: `Causets.C05_cardinalities`.
* **C06** LinkConeCard is the number of linked events - *partial* (Props/Events.lean). Refuted by a reachable witness; what the bitwise expression computes is proved. Theorems: `Causets.C06_refuted`, `Causets.C06_refuted_witness`, `Causets.C06_actual_partial`. The property is false of the code (bitwise &); refuted, and what the code returns is proved.
* **C07** disjoin removes an event from the causal order and nothing else - *proved* (Props/Events.lean). Set equations for all fields after `disjoin`; order of the others untouched. Theorems: `Causets.C07_disjoin`, `Causets.C07_disjoin_unlinked`.
* **C08** Link queries stay correct after disjoin - *partial* (Props/DisjoinLinks.lean, Props/Events.lean). Refuted by a reachable witness, for every iteration order. The link memory after the loop is computed for each event from the part of the iteration before and after it (`Lemmas/DisjoinExact.lean`), which gives the exact condition for right link queries. Theorems: `Causets.C08_refuted`, `Causets.C08_refuted_witness`, `Causets.C08_disjoin_partial`, `Causets.C08_queries`, `Causets.C08_exact_iff`, `Causets.C08_always_iff`. The property is false of the code when disjoining creates a new link between events with link memory: refuted for every iteration order. What every link query answers after disjoin is proved for every iteration order, with the exact condition for right answers.
* **C09** Causet(S) is the least causally closed superset of S - *proved* (Props/Cones.lean). Loop invariant (subset of the closure), termination by a strictly growing bounded set; least fixed point. Theorems: `Causets.C09_causet_closure`, `Causets.C09_causet_of_closed`, `Causets.C09_iteration_independent`.
* **C10** FromPermutation builds the 2D order of the permutation - *proved* (Props/Construct.lean). General lemma on constructing events one after another with given pasts; permutation combinatorics. Theorems: `Causets.C10_labels`, `Causets.C10_fromPermutation`, `Causets.C10_not_permutation`.
* **C11** NewChain and NewAntichain build chains and antichains of the requested size - *proved* (Props/Construct.lean). Instances of the lemma of C10. Theorems: `Causets.C11_newChain`, `Causets.C11_newAntichain`.
* **C12** NewFence builds the fence of the requested length and height - *proved* (Props/Construct.lean). Loop invariants over layers; explicit relation of the fence. Theorems: `Causets.C12_newFence`, `Causets.C12_newFence_one`, `Causets.C12_newFence_empty`, `Causets.C12_newCrown`.
* **C13** NewSimplex builds the face lattice of the d-simplex - *proved* (Props/Simplex.lean). Induction over dimensions; bijection with the faces of the simplex (non-empty subsets). Theorems: `Causets.C13_newSimplex`, `Causets.C13_count`, `Causets.C13_negative`.
* **C14** FromPastMatrix realises a causal matrix and PastMatrix reads it back - *proved* (Props/Matrix.lean). Loop invariant over rows and columns of the matrix; `PastMatrix` read back entry by entry. Theorems: `Causets.C14_fromPastMatrix`, `Causets.C14_fromFutureMatrix`.
* **C15** FromPastMatrix raises ValueError on causal loops - *partial* (Props/Matrix.lean, Props/MatrixExact.lean). Loops of length 1 and 2 raise (proved); a cycle of length 3 is accepted (witness). Theorems: `Causets.C15_short_loops_partial`, `Causets.C15_refuted`, `Causets.C15_refuted_witness`, `Causets.C15_raise_harmless`. Exactly the loops of length 1 and 2 are detected; refuted for all longer ones.
* **C16** FromPastMatrix completes link matrices - *partial* (Props/Matrix.lean, Props/MatrixExact.lean). Transitive closure for sorted matrices by induction over rows; witnesses otherwise. Theorems: `Causets.C16_sorted_partial`, `Causets.C16_refuted`, `Causets.C16_exact`. For causally sorted matrices < is the transitive closure; futures and unsorted matrices are refuted. C16_exact says for every matrix what < and Future are.
* **C17** merge places one causet after the other - *proved* (Props/MergeLink.lean). Double loop invariant; the new order is the union with a product. Theorems: `Causets.C17_merge`, `Causets.C17_merge_closure`, `Causets.C17_merge_disjoint`.
* **C18** Link queries stay correct after merge - *partial* (Props/MergeExact.lean, Props/MergeLink.lean). The double loop is a fold over the list of pairs; induction over the list gives the link memory of every event after every prefix (`Lemmas/MergeExact.lean`), hence the exact condition for right link queries; witness with stale memory. Theorems: `Causets.C18_merge_links_partial`, `Causets.C18_merge_disjoint`, `Causets.C18_refuted`, `Causets.C18_queries`, `Causets.C18_exact_iff`, `Causets.C18_always_iff`. What every link query answers after merge is proved for every iteration order, with the exact condition for right answers; refuted in general.
* **C19** add and discard are set union and difference - *proved* (Props/Cones.lean). Set algebra; outcome of `unlink=True` included. Theorems: `Causets.C19_card`, `Causets.C19_add_discard`, `Causets.C19_add_discard_unlink`.
* **C20** Set operators on causets follow set algebra - *partial* (Props/Cones.lean). Set algebra for every operator; witness for the reflected minus. Theorems: `Causets.C20_operators_partial`, `Causets.C20_refuted`. All operators but the reflected minus; that one is refuted.
* **C21** isChain and isAntichain decide chains and antichains - *proved* (Props/Cones.lean). Counting argument: the test on cardinalities is equivalent to the pairwise definition; closure needed (witness). Theorems: `Causets.C21_isChain`, `Causets.C21_isAntichain`, `Causets.C21_isChain_whole`, `Causets.C21_isAntichain_whole`, `Causets.C21_whole_needs_closure`.
* **C22** isPath decides causal paths - *partial* (Props/Path.lean). The code's degree test is characterised; accepted for every saturated path; crowns are a witness against the converse. Theorems: `Causets.C22_isPath_accepts_partial`, `Causets.C22_isPath_whole`, `Causets.C22_isPath_of_chain`, `Causets.C22_isPath_degrees`, `Causets.C22_refuted`. The "only if" direction is false of the code; refuted. What isPath decides is characterised.
* **C23** Past and future infinities are the minimal and maximal events - *proved* (Props/Cones.lean). Minimal and maximal elements by definition; finite sets. Theorems: `Causets.C23_pastInfOf`, `Causets.C23_futureInfOf`, `Causets.C23_pastInf`, `Causets.C23_futureInf`, `Causets.C23_closed_agree`, `Causets.C23_bounding`, `Causets.C23_antichains`, `Causets.C23_cards`.
* **C24** PastOf, FutureOf, ConeOf and SpacelikeTo compute unions of cones - *proved* (Props/Cones.lean). Folds over an arbitrary iteration order are unions. Theorems: `Causets.C24_pastOf`, `Causets.C24_futureOf`, `Causets.C24_coneOf`, `Causets.C24_spacelikeTo`, `Causets.C24_iteration_independent`.
* **C25** intersect=True returns common pasts, futures and cones - *partial* (Props/Cones.lean). The result is empty for every input (refutation). Theorems: `Causets.C25_refuted`, `Causets.C25_refuted_witness`, `Causets.C25_intersect_partial`. The property is false of the code; refuted, and the exact condition for a right answer proved.
* **C26** Intervals and their cardinalities - *proved* (Props/Cones.lean). Set equations; cardinalities by counting on valid heaps. Theorems: `Causets.C26_interval`, `Causets.C26_interval_open`, `Causets.C26_interval_self`, `Causets.C26_interval_empty`, `Causets.C26_intervalCard`.
* **C27** Perimetral and internal events split the open interval - *proved* (Props/Perimetral.lean). Partition of the open interval; counting. Theorems: `Causets.C27_perimetral`, `Causets.C27_internal`, `Causets.C27_counts`.
* **C28** CentralAntichain returns a maximal antichain - *proved* (Props/Perimetral.lean). Invariant of the greedy fold over the sorted imbalance keys: the result stays an antichain and every event passed is related to it. Theorems: `Causets.C28_centralAntichain`, `Causets.C28_central`.
* **C29** Layer numbers - *proved* (Props/Layers.lean). Layer numbers against declarative predicates (IsLayerUp, IsLayerDown: least upper bound of interval sizes above or below the set); sign, monotony. Theorems: `Causets.C29_layerNumbers`, `Causets.C29_sign`, `Causets.C29_strictMono`, `Causets.C29_layers`, `Causets.C29_layer_zero`.
* **C30** layered partitions the events into antichains by height - *proved* (Props/Layered.lean). Loop invariant of the layer recursion; height function; witness for non-convex sets. Theorems: `Causets.C30_layered`, `Causets.C30_layered_of`, `Causets.C30_needs_convexity`.
* **C31** Rank is the shortest link distance - *proved* (Props/Rank.lean). Fuelled recursion = shortest path length in the link graph; recursion depth bounded by the number of events. Theorems: `Causets.C31_rank`, `Causets.C31_depth`. For every recursion limit at least the number of events (Python: its recursion limit).
* **C32** Ranks and RankNumbers - *proved* (Props/RankNumbers.lean, Props/Schedule.lean). Loop invariant over ranks; relation to C31. Theorems: `Causets.C32_ranks_any`, `Causets.C32_rankNumbers`, `Causets.C32_ranks`, `Causets.C32_sign`, `Causets.C32_le_layer`.
* **C33** Paths enumerates all paths in a length range exactly once - *proved* (Props/Paths.lean). Depth-first search enumerates every saturated path exactly once (list without duplicates). Theorems: `Causets.C33_paths`, `Causets.C33_all`, `Causets.C33_errors`.
* **C34** Paths with 'min' and 'max' yield exactly the extremal paths - *proved* (Props/Paths.lean). Extremal lengths by comparison with C33. Theorems: `Causets.C34_min`, `Causets.C34_max`, `Causets.C34_nonempty`.
* **C35** disjoint returns the connected components - *proved* (Props/Components.lean). Connected components of the comparability graph; loop invariant. Theorems: `Causets.C35_disjoint`, `Causets.C35_isDisjoint`.
* **C36** sortedByCausality returns a linear extension - *proved* (Props/Sorting.lean). Sorting by any key order that extends causality; insertion of arbitrary iteration orders. Theorems: `Causets.C36_sortedByLabels`, `Causets.C36_sortedByCausality`.
* **C37** Causal and link matrices - *proved* (Props/Sorting.lean). Entry-wise description of the matrices. Theorems: `Causets.C37_given`, `Causets.C37_default`, `Causets.C37_links`, `Causets.C37_links_default`, `Causets.C37_closure`.
* **C38** Causet.link caches exact links for causally closed causets - *proved* (Props/LinkAny.lean, Props/MergeLink.lean, Props/Relate.lean). Cache equals covering relation after the loop; closure needed (witness). Theorems: `Causets.C38_link`, `Causets.C38_link_exact`, `Causets.C38_linkCount_of`, `Causets.C38_linkCount`, `Causets.C38_outcome`, `Causets.C38_any`, `Causets.C38_needs_closure`, `Causets.C38_unlink`.
* **C39** SmallestIntervalCard - *proved* (Props/Layered.lean). Minimum over intervals; symmetric. Theorems: `Causets.C39_general`, `Causets.C39_symmetric`, `Causets.C39_related`, `Causets.C39_spacelike`.
* **C40** DistanceMatrix is a symmetric matrix with zero diagonal - *proved* (Props/Distance.lean, Props/GraphDist.lean). Loop invariant of the distance propagation; graph distance in the antichain graph. Theorems: `Causets.C40_distanceMatrix`, `Causets.C40_iteration_order`, `Causets.C40_values`, `Causets.C40_chained`, `Causets.C40_graph_distance`, `Causets.C40_one_step`, `Causets.C40_isolated`.
* **C41** Antipaths yields antichain paths between its endpoints - *proved* (Props/Antipaths.lean). Search over the matrix yields exactly the shortest paths. Theorems: `Causets.C41_antipaths`, `Causets.C41_no_distance`, `Causets.C41_trivial`, `Causets.C41_shortest`. Soundness for every matrix; exactly all shortest paths for its own distances on a connected antichain.
* **C42** relate gives exactly the order of the spacetime - *proved* (Props/Create.lean, Props/CreateOrder.lean, Props/Relate.lean). Double loop over events with an arbitrary causality function and iteration order; histories of `create`/`relate`/`add`. Theorems: `Causets.C42_relate`, `Causets.C42_causal_order`, `Causets.C42_distinct`, `Causets.C42_create_any`, `Causets.C42_create`, `Causets.C42_history`. For every causality function and iteration order; C42_causal_order/C42_distinct under IsCausalOrder, which C43/C44 establish for the spacetimes.
* **C43** Flat causality is a partial order - *partial* (Props/Flat.lean, Props/FlatTol.lean). Real analysis: Minkowski triangle inequality; tolerance and periods refuted by witnesses. Theorems: `Causets.C43_directions`, `Causets.C43_order`, `Causets.C43_minkowski`, `Causets.C43_causal_order`, `Causets.C43_general_position_partial`, `Causets.C43_tolerance_refuted`, `Causets.C43_create_refuted`, `Causets.C43_period_refuted`. Exact for tolerance 0, and with tolerance in general position; refuted with the coded tolerance and for points further apart than the period.
* **C44** Curved causality - *partial* (Props/BlackHole.lean, Props/Curved.lean, Props/Horizon.lean). De Sitter through its embedding (reversed Cauchy-Schwarz), black holes through monotone ray times; anti-de Sitter refuted. Theorems: `Causets.C44_deSitter`, `Causets.C44_deSitter_order`, `Causets.C44_deSitter_time`, `Causets.C44_EF`, `Causets.C44_EF_order`, `Causets.C44_Schwarzschild`, `Causets.C44_Schwarzschild_order`, `Causets.C44_EF_horizon`, `Causets.C44_Schwarzschild_horizon`, `Causets.C44_horizon_order`, `Causets.C44_horizon_refuted`, `Causets.C44_AdS_directions_partial`, `Causets.C44_AdS_refuted`. Anti-de Sitter is refuted (not transitive, not time ordered); de Sitter and black holes proved, with the values -inf, inf and nan on the horizon. Refuted: two points on the horizon of a black hole are never related (Eddington-Finkelstein).
* **C45** Embedded and abstract FromPermutation agree - *proved* (Props/EmbPermutation.lean). Grid points in light-cone coordinates; same order as C10. Theorems: `Causets.C45_fromPermutation`, `Causets.C45_needs_cell_size`.
* **C46** create labels new events consecutively - *proved* (Props/Create.lean, Props/EmbInit.lean, Props/Embed.lean). Induction over the rows; labels over histories of create. Theorems: `Causets.C46_create`, `Causets.C46_create_ok`, `Causets.C46_labels_distinct`, `Causets.C46_labels_after_discard_refuted`. The last theorem shows that create-only histories are needed for distinct labels.
* **C47** Intensity equals Card over every history without Poisson sampling - *partial* (Props/Intensity.lean). Invariant over histories of calls that do not raise; witnesses for calls that raise. Theorems: `Causets.C47_intensity_partial`, `Causets.C47_new`, `Causets.C47_intensify`, `Causets.C47_discard`, `Causets.C47_refuted_add`, `Causets.C47_refuted_sprinkle`. Intensity = Card for all histories in which no call raises; refuted after a call that raises (the causet or the intensity is updated before the exception).
* **C48** Sprinkled coordinates lie in the shape - *partial* (Props/Sprinkle.lean). Ranges of draws; the bicone branch is unreachable, so rows stay uninitialised (refutation). Theorems: `Causets.C48_in_region_partial`, `Causets.C48_bicone_uninitialised`, `Causets.C48_bicone_refuted`, `Causets.C48_cylinder_1d`, `Causets.C48_negative`, `Causets.C48_cuboid_onto`. Proved for cube, cuboid, ball, cylinder (dimension at least 2). Refuted for the bicone: uninitialised memory is returned.
* **C49** Harmonic numbers are exact below the approximation threshold and agree - *partial* (Props/Harmonic.lean). Induction over the sums; agreement of four functions, exactly up to int64 overflow. Theorems: `Causets.C49_fractions`, `Causets.C49_exact`, `Causets.C49_exact_int`, `Causets.C49_raises`, `Causets.C49_agree_partial`, `Causets.C49_agree_iff`, `Causets.C49_agree_refuted`. Agreement refuted from 55109 on (int64 overflow), proved exactly up to there.
* **C50** HarmonicNumbers is finite for every n - *partial* (Props/Harmonic.lean). int64 arithmetic modulo 2^64; finite exactly below the threshold or when 65536 does not divide k; witness k = 65536. Theorems: `Causets.C50_finite_partial`, `Causets.C50_refuted`. Refuted: the int64 powers overflow to 0 for some n, division by zero.
* **C51** Newton's method stays in its interval - *partial* (Props/Newton.lean). Induction over iterations; exact characterisation of the result, residual and interval. Theorems: `Causets.C51_result`, `Causets.C51_interval`, `Causets.C51_residual`, `Causets.C51_documented_interval_refuted`. The documented interval is refuted; the interval the code keeps is proved.
* **C52** Shapes are constructed exactly for valid parameters - *proved* (Props/Shapes.lean). Case analysis of the constructor against the documented ranges. Theorems: `Causets.C52_init`.
* **C53** Volume is the Lebesgue volume of the shape - *partial* (Props/Volume.lean). Lebesgue measure in Mathlib (products, balls, cones by integration over slices). Theorems: `Causets.C53_volume`, `Causets.C53_documented_cylinder_refuted`, `Causets.C53_flat_cylinder_refuted`. Equal to the Lebesgue measure of the region that the code describes, for all shapes and dimensions. Refuted: the documented hollow cylinder (hollow also along the duration), and positivity for the hollow cylinder in one dimension.
* **C54** Limits bound the shape - *proved* (Props/Limits.lean). Extremal coordinates, attained in the closed shape. Theorems: `Causets.C54_limits`, `Causets.C54_maxEdgeHalf`, `Causets.C54_cylinder_time_only`.
* **C55** Edge polygons are closed, have the documented number of rows and lie on the edge - *proved* (Props/Edges.lean). Trigonometric parametrisation; shoelace formula for orientation and area. Theorems: `Causets.C55_ellipse`, `Causets.C55_circle`, `Causets.C55_rectangle`, `Causets.C55_bicone`, `Causets.C55_cylinderCut`, `Causets.C55_negative_hollow_refuted`. Also the orientation. The last theorem shows that hollow >= 0 is needed.
* **C56** Colour conversion - *proved* (Props/Colors.lean). Dictionary semantics as association lists; histories of the global scheme. Theorems: `Causets.C56_getColor`, `Causets.C56_dict`, `Causets.C56_list`, `Causets.C56_idempotent`, `Causets.C56_global`, `Causets.C56_defaults`, `Causets.C56_setDefaultColors`, `Causets.C56_dict_failure`.
* **C57** Plotter reserves exactly as many link artists as it draws - *proved* (Props/PlotLinks.lean, Props/PlotOutcome.lean). Loop over pairs against the reserved list; cache state transformer. Theorems: `Causets.C57_pairs`, `Causets.C57_count`, `Causets.C57_targets`, `Causets.C57_static`, `Causets.C57_dynamic`, `Causets.C57_repeated_refuted`. A list that repeats an event raises IndexError.
* **C58** Fading functions - *proved* (Props/Fading.lean). Real inequalities for the three fading functions. Theorems: `Causets.C58_at_zero`, `Causets.C58_wrong_side`, `Causets.C58_linear`, `Causets.C58_exponential`, `Causets.C58_intensity`, `Causets.C58_names`, `Causets.C58_zero_depth`.
* **C59** permuted returns all events with a permutation of the same length - *partial* (Props/Permuted.lean). Exact outcome of the code for every set: list too short, or TypeError. Theorems: `Causets.C59_refuted`, `Causets.C59_default`, `Causets.C59_examples`. The list of numbers is always too short; exact outcome proved for every set.
* **C60** findClosedFences terminates - *partial* (Props/Fences.lean). Outcome for every start by analysis of the search loop. Theorems: `Causets.C60_refuted`, `Causets.C60_nothing_new`, `Causets.C60_example`. Outcome for every start; open starts never return a fence.
* **C61** Embedding flags - *partial* (Props/Embed.lean). State machine of the attributes over all histories; witness for new events. Theorems: `Causets.C61_flags_partial`, `Causets.C61_new_event_refuted`. Refuted for new events; every other statement proved for all histories.
* **C62** CSV round trip - *proved* (Props/TextFile.lean). Text level: printing and parsing of the matrix are inverse. Theorems: `Causets.C62_roundtrip`, `Causets.C62_saves`, `Causets.C62_small_refuted`. Round trip for causets of at least two events; the statement excludes fewer, for which reading raises (C62_small_refuted).
* **C63** find, findAll and findAny search by label - *proved* (Props/Cones.lean). List search over an arbitrary iteration order. Theorems: `Causets.C63_find`, `Causets.C63_findAll_findAny`.
* **C64** copy does not affect the original - *proved* (Props/Events.lean). Fresh event; frame condition. Theorems: `Causets.C64_copy`.
* **C65** relabel numbers events by coordinate - *proved* (Props/Embed.lean). Any argsort permutation; labels are ranks of the coordinate. Theorems: `Causets.C65_relabel`, `Causets.argsort_exists`.
* **C66** Antipaths ends normally for every antichain and computed distance matrix - *partial* (Props/Antipaths.lean). Fuelled recursion; ends for connected antichains, witnesses otherwise. Theorems: `Causets.C66_ends_partial`, `Causets.C66_intersection_refuted`, `Causets.C66_isolated_refuted`. Refuted for intersection matrices and isolated antichains.
* **C67** Flat spacetimes are constructed exactly for valid parameters and can be printed - *partial* (Props/FlatTol.lean). Case analysis of the constructor; printing refuted. Theorems: `Causets.C67_flat_init`, `Causets.C67_repr_refuted`, `Causets.C67_repr_partial`. repr is refuted for non-periodic spacetimes.
* **C68** HarmonicNumber approximation error - *proved* (Props/Harmonic.lean). Error bound by the integral test for the next term of the expansion. Theorems: `Causets.C68_expansion_error`.
* **C69** Surfaces lie on the boundary of the shape about the given centre - *partial* (Props/Surfaces.lean). Trigonometric parametrisations of all patches; rotated centre refuted. Theorems: `Causets.C69_ball`, `Causets.C69_cuboid`, `Causets.C69_cuboid_mesh`, `Causets.C69_cube`, `Causets.C69_cylinder_partial`, `Causets.C69_cone_partial`, `Causets.C69_cylinder_meridian`, `Causets.C69_cone_meridian`, `Causets.C69_cylinder_refuted`, `Causets.C69_cone_refuted`. Cylinders and cones along the axes 0 and 1 are refuted: they are centred at the rotated centre.
* **C70** plot draws the boundary of the cut through the centre - *partial* (Props/PlotShape.lean). Combination of C55/C69 with the cut through the centre. Theorems: `Causets.C70_plot3_partial`, `Causets.C70_plot2_partial`, `Causets.C70_bicone_refuted`, `Causets.C70_cylinder_refuted`. Refuted if time is the first (3 dimensions: or second) plotted dimension.
* **C71** Density and length scale - *partial* (Props/Intensity.lean). Algebra of density and length scale. Theorems: `Causets.C71_sprinkled`, `Causets.C71_embedded`, `Causets.C71_embedded_refuted`. EmbeddedCauset.LengthScale is the root of the density, not its inverse.
* **C72** Sprinkling yields a consistent causet in the shape, ordered by causality - *proved* (Props/SprinkleOrder.lean). C42 and C48 combined, over histories. Theorems: `Causets.C72_new`, `Causets.C72_sprinkle`, `Causets.C72_intensify`, `Causets.C72_history`. Shapes other than the bicone; normal vectors drawn are not zero.
* **C73** Scheme colours are valid colours - *partial* (Props/Colors.lean). All strings of all schemes checked by kernel reduction (finite data of the program, not a sample). Theorems: `Causets.C73_hex_partial`, `Causets.C73_refuted`. One colour is invalid.
* **C74** Documented fading of dynamic plots - *partial* (Props/Fading.lean). Evaluation of the fading functions against the documented half time. Theorems: `Causets.C74_half_time_refuted`, `Causets.C74_half_time_partial`, `Causets.C74_intensity_refuted`. The documentation disagrees with the code.
* **C75** Links in dynamic plots - *proved* (Props/PlotDynamic.lean). Geometry of segments in real coordinates. Theorems: `Causets.C75_visible`, `Causets.C75_drawn`, `Causets.C75_geometry`, `Causets.C75_artist`.
* **C76** Links in static plots pass through the events on them in order - *partial* (Props/PlotStatic.lean). Projection onto the segment; order by parameter; tolerance refuted. Theorems: `Causets.C76_points`, `Causets.C76_order`, `Causets.C76_markers`, `Causets.C76_tolerance_refuted`, `Causets.C76_on_link`. Order proved for events exactly on the segment, refuted within the tolerance.
* **C77** Axis limits enclose the shape - *partial* (Props/PlotOutcome.lean). Case analysis; extremal coordinates from C54. Theorems: `Causets.C77_two`, `Causets.C77_three`, `Causets.C77_user`, `Causets.C77_automatic_refuted`, `Causets.C77_kept`. Proved for the keyword argument shape; the automatic shape of an EmbeddedCauset has no effect.
* **C78** Plotter returns normally for all documented arguments - *partial* (Props/PlotOutcome.lean). Exact condition for a normal return, for every heap. Theorems: `Causets.C78_iff`, `Causets.C78_documented_refuted`. Exact condition proved; two documented uses never return.
* **C79** Plot parameters are the settings of the user over the defaults - *partial* (Props/PlotOutcome.lean, Props/PlotParams.lean). Dictionary semantics of all parameters. Theorems: `Causets.C79_errors`, `Causets.C79_parameters`, `Causets.C79_documented`, `Causets.C79_defaults`, `Causets.C79_linkgap_refuted`, `Causets.C79_linkgap_partial`. linkgapsize is ignored with links=True.
* **C80** AntichainPermutations and layeredPermutations yield permutations of antichains and layers - *partial* (Props/AntiPerm.lean). Soundness of everything yielded; outcome for singletons. Theorems: `Causets.C80_antichainPermutations`, `Causets.C80_layeredPermutations`, `Causets.C80_singleton_refuted`, `Causets.C80_layeredPermutations_refuted`. Single events have no permutation.
* **C81** EmbeddedCauset checks its arguments and builds the embedded causet they describe - *partial* (Props/EmbInit.lean). Case analysis over all combinations of arguments. Theorems: `Causets.C81_accepts`, `Causets.C81_rejects_partial`, `Causets.C81_no_dimension`, `Causets.C81_init`, `Causets.C81_order`, `Causets.C81_rows_refuted`. Rows of a list are not checked.
* **C82** SprinkledCauset builds a sprinkle in the region its arguments describe - *partial* (Props/SprInit.lean). C81 and C72 combined. Theorems: `Causets.C82_new_partial`, `Causets.C82_rejects`, `Causets.C82_default_refuted`. Default region is not sprinkled.
* **C83** Causal cones of flat spacetimes are drawn where the causality function says - *partial* (Props/ConeFlat.lean). Regions of polygons as convex hulls of triangles; trigonometric surfaces. Theorems: `Causets.C83_flat_time`, `Causets.C83_minkowski_time`, `Causets.C83_flat_space`, `Causets.C83_flat_3d_partial`, `Causets.C83_flat_3d_refuted`. 3-D cones are misplaced unless the time axis is the last one.
* **C84** Causal cones of de Sitter spacetime are drawn where the causality function says - *partial* (Props/ConeDS.lean, Props/ConeDSXY.lean). Hyperbolic functions; the ellipse of the light cone in static coordinates. Theorems: `Causets.C84_deSitter_2d`, `Causets.C84_deSitter_space`, `Causets.C84_deSitter_3d`, `Causets.C84_deSitter_3_time`, `Causets.C84_deSitter_time`, `Causets.C84_offplane_refuted`. Wrong for events off the plotted plane in 4 or more dimensions.
* **C85** Causal cones of black holes are drawn where the causality function says - *proved* (Props/ConeBH.lean). Corners are least/greatest elements of the times given by C44; derivatives in Mathlib; C51 for the end of a ray. Theorems: `Causets.C85_derivatives`, `Causets.C85_EF`, `Causets.C85_S_inside_future`, `Causets.C85_S_inside_past`, `Causets.C85_S_outside`, `Causets.C85_not_implemented`. The end of a ray is where Newton's method stops (ApproxRoot).
* **C86** plotDiagram places the events by the permutation - *partial* (Props/Diagram.lean). Loop invariant of the setter; grid points of C45. Theorems: `Causets.C86_positions`, `Causets.C86_other_length`, `Causets.C86_out_of_range`, `Causets.C86_order`, `Causets.C86_hasse`, `Causets.C86_documented_refuted`. The code uses the inverse of the documented permutation.
* **C87** Parameters of shapes can be read and printed - *partial* (Props/Shapes.lean). Case analysis over well-formed shapes. Theorems: `Causets.C87_parameter`, `Causets.C87_parameter_values`, `Causets.C87_str`, `Causets.C87_repr_refuted`. repr of a shape always raises.
* **C88** Reading and plotting a shape does not change it - *partial* (Props/ShapeState.lean). Object with its volume memory; induction over the sequence of calls. Theorems: `Causets.C88_shape_after`, `Causets.C88_unchanged_partial`, `Causets.C88_volume_memory`, `Causets.C88_volume_late`, `Causets.C88_refuted`. Plotting a hollow bicone in three dimensions with time shrinks it.
* **C89** Every program of API calls keeps the events a causal set - *proved* (Props/Program.lean, Props/ProgramEmb.lean). Inductive predicate Program over all modelled calls; the invariant (valid order, exact links) is shown to hold for every step; questions are shown to keep the order by structural lemmas on the state monad. `relate` with and without links is a step; `FromTextFile`, `create(relate=False)`, `EmbeddedCauset`, `sprinkle`, `intensify` are shown to be sequences of steps. Not part of programs: copy, and matrices that are not orders. Theorems: `Causets.C89_order`, `Causets.C89_links`, `Causets.C89_questions`, `Causets.C89_constructors`, `Causets.C89_sprinkled`. Programs do not contain copy and matrices that are not orders.
* **C90** Plots draw the causal cones of the right events with the right opacity - *proved* (Props/PlotCones.lean). Inversion of a successful run of the plotting function; induction over the events; the fading functions of C58 in closed form. Theorems: `Causets.C90_cones`, `Causets.C90_plot`, `Causets.C90_range`. The geometry of the cones is C83 to C85.
* **C91** Answers do not depend on the iteration order of Python sets - *partial* (Props/Schedule.lean). Every loop over a set goes through an arbitrary enumeration `Iter` of the model; the answers are compared for two enumerations, using the exact characterisations of the other properties (uniqueness of the specified answer). Theorems: `Causets.C91_order_queries`, `Causets.C91_components`, `Causets.C91_link_queries`, `Causets.C91_changes`, `Causets.C91_central_refuted`, `Causets.C91_disjoin_refuted`. False for CentralAntichain and for link queries after disjoin; generator orders may differ (lists of paths and components equal up to order).
* **C92** Arguments documented as Iterable can be any iterable - *partial* (?, Props/Iterables.lean). Iterables are modelled with the items they have left; the functions are run over lists and iterators and compared with their models over sets; induction over the loops. Theorems: `Causets.C92_event`, `Causets.C92_merge`, `Causets.C92_merge_once`, `Causets.C92_merge_past_once`, `Causets.C92_merge_refuted`, `Causets.C92_add_discard`, `Causets.C92_discard_self`, `Causets.Objs.C92_discard_self_objects`, `Causets.C92_antipaths`, `Causets.C92_antipaths_once`. False for merge and Antipaths with iterators and for discard of a causet from itself (exact outcomes proved).
* **C93** Constructing a causet does not touch the events that exist - *proved* (Props/Frame.lean). A frame predicate between the states before and after, kept by the creation of an event whose past is new; induction over the loops of each constructor. Theorems: `Causets.C93_constructors`, `Causets.C93_matrices`.
* **C94** A call that raises an exception leaves the causal order and links right - *partial* (Props/Frame.lean). Case analysis of each call with the state at the point where it raises. Theorems: `Causets.C94_unchanged`, `Causets.C94_order`, `Causets.C94_link_refuted`, `Causets.C94_relate_refuted`. False for Causet.link (links) and relate (order).
* **C95** The library neither changes nor keeps the sets that it is given - *proved* (?). Model with references: set objects with identities, attributes referring to them, `for` over a set object with Python's size check (`Model/Objects.lean`). Invariant: every attribute has its own object; each call keeps the objects that are no attributes. Theorems: `Causets.Objs.C95_arguments_kept`, `Causets.Objs.C95_add_discard`, `Causets.Objs.C95_causet_own_set`, `Causets.Objs.demo_sets`. demo_sets: a set that has been an argument, in a program with events.
* **C96** Passing sets by reference has the effect of passing their values - *proved* (?). Refinement: the model with references against the model by values, call by call; `Objs.abs` forgets the references. For loops over aliased sets: the guards of `_addToPast` and `_addToFuture` and the order axioms show that the iterated set does not change. Theorems: `Causets.Objs.C96_by_value`, `Causets.Objs.C96_programs`, `Causets.Objs.demo_prog`, `Causets.Objs.demo_aliased`. For merge, __init__ and the cone functions the arguments may be sets of events; a causet discarded from itself is excluded (C92).
* **C97** Sets returned by the library are independent of the events - *partial* (?). Model with references; objects that are no attributes are kept by every call; `_prec` and `_succ` are assigned only by `__init__`, `copy` (new events) and `disjoin`. Theorems: `Causets.Objs.C97_snapshot`, `Causets.Objs.C97_live`, `Causets.Objs.C97_kept_refuted`, `Causets.Objs.C97_own_refuted`, `Causets.Objs.C97_disjoin_stale`. False for Past and Future, which return the internal set objects; exact statements proved for all others and for when Past and Future stay live.
* **C98** Embedded causets are ordered by the causal relation of their spacetime - *proved* (Props/SpacetimeOrder.lean). Specification `SpacetimeObj.Le` of the causal relation per spacetime; composition of C43, C44 (causality functions) with C81 (constructor); antisymmetry by real analysis (sinh, ray times strictly monotone). Theorems: `Causets.C98_causality`, `Causets.C98_embedded`, `Causets.C98_antisymm`. The relation of anti-de Sitter spacetime is no order (C44), so points on which it is transitive are required there; the tolerance (C43, C44) is excluded by the hypothesis hgen, which holds for eps = 0 and for points in general position.
* **C99** A spacetime given by name is the spacetime of that name and metric - *partial* (Props/SpacetimeOrder.lean). Case analysis of the constructors; witness for the refuted part by inequalities of the ray time inside the horizon. Theorems: `Causets.C99_names`, `Causets.C99_metric_refuted`. False for the name 'Schwarzschild'; names and dimensions proved for all.
* **C100** EmbeddedCauset.FromPermutation rejects lists that are no permutations - *partial* (Props/EmbPermOutcome.lean). Induction over the loop of `_Permutation_Coords` with numpy's index rule; composition with C46 for the events. Theorems: `Causets.C100_outcome`, `Causets.C100_reject_refuted`, `Causets.C100_inside_refuted`, `Causets.C100_reject_partial`. False: lists like [1, 1] and [0, 1] are accepted; the exact outcome is proved for every list.
* **C101** The events of a sprinkle are independent and uniformly distributed in the shape - *partial* (Props/UniformSprinkle.lean). `RandomDraws` specifies the generator as random variables on a probability space (existence shown on an infinite product); polar coordinates and the change of variables of the radius give the law of a row, independence by grouping the draws by row; composed with C46, C48, C72 for the events. Theorems: `Causets.C101_coords_partial`, `Causets.C101_probability`, `Causets.C101_almost_surely`, `Causets.C101_distinct`, `Causets.C101_sprinkle_partial`, `Causets.C101_order_partial`, `Causets.C101_bicone_refuted`. False for bicones. Uniform with respect to the coordinates, whatever the spacetime (for de Sitter and black hole metrics that is not the spacetime volume). Real arithmetic.
* **C102** intensify is a Poisson process - *partial* (Props/PoissonSprinkle.lean). C101 and the joint characteristic function of the counts of a Poisson number of independent points (computed from the generating function of the Poisson distribution). Theorems: `Causets.C102_intensify_partial`, `Causets.C102_new_partial`, `Causets.C102_twice_partial`, `Causets.C102_bicone_refuted`. False for bicones, proved for all other shapes (cylinders of dimension at least 2).
* **C103** Calls of a plotting function do not depend on the calls before - *partial* (Props/PlotCalls.lean, Props/PlotKwargs.lean). `Model/PlotCalls.lean` models the object returned by `Plotter` with the dictionaries that its calls update; invariant: the dictionaries are those of the set-up up to the values of the keys that every artist sets anew (`PlotterObj.Over`). Erasing the keyword arguments gives the one-call model of C57, C75, C76, C90. Theorems: `Causets.C103_calls`, `Causets.C103_kwargs`, `Causets.C103_first`, `Causets.C103_fresh`, `Causets.C103_time`, `Causets.C103_time_ends`, `Causets.C103_int`, `Causets.C103_handles`, `Causets.C103_stale`, `Causets.C103_stale_refuted`, `Causets.C103_dict_refuted`. The two refuted sentences are in brackets; the first part is proved without restriction. An int as time raises TypeError when the time is needed (C103_int). `time=[t]` given to `plot` (not to the plotting function) and blending of matplotlib artists are not modelled.
* **C104** Causality in floating point arithmetic - *partial* (Props/FloatBH.lean, Props/FloatCausality.lean, Props/FloatCurved.lean, Props/FloatExact.lean, Props/FloatRound.lean). `Model/FloatCausality.lean` repeats the causality functions with a rounding after every operation; `Props/FloatRound.lean` proves that ties-to-even is a rounding to nearest and derives monotonicity, exact signs of differences and the error bound from `nearest`; the error of the sum from left to right by induction; witness of the refutation: a Pythagorean triple of 30-bit integers, scaled by 2^-23. `Props/FloatCurved.lean` and `Props/FloatBH.lean`: error propagation step by step (`near_rnd`, `near_mul`, `near_sq`, `near_sqrt`, `log_near`) with explicit constants `curvedErr`, `bhErr`; the accuracy of the library functions is a hypothesis. Theorems: `Causets.C104_ieee`, `Causets.C104_directions`, `Causets.C104_curved`, `Causets.C104_2D`, `Causets.C104_accuracy`, `Causets.C104_exact`, `Causets.C104_create`, `Causets.C104_numbers`, `Causets.C104_large_refuted`, `Causets.C104_deSitter`, `Causets.C104_antiDeSitter`, `Causets.C104_deSitter_numbers`, `Causets.C104_BH_directions`, `Causets.C104_BH_infall`, `Causets.C104_BH_accuracy`, `Causets.C104_BH_sides`, `Causets.C104_BH_refuted`. The refuted sentences are in brackets. Overflow to inf, NaN and points exactly on the horizon of a black hole: C116.
* **C105** Programs working on one causet cannot affect another - *proved* (Props/Isolation.lean). `Lemmas/Isolation.lean`: the invariant `Isolated U h0 h` (events outside U unchanged, U self-contained) is kept by every elementary update of an event of U whose new references are in U; induction over the loops of all methods; questions by a Hoare-style predicate `Local` over the state monad; `Work` is the inductive relation of all call sequences. Theorems: `Causets.C105_isolated`, `Causets.C105_results`, `Causets.C105_two_causets`, `Causets.C105_case`. No validity hypothesis on the state or the calls. C105_two_causets starts in a state of C89. Questions without effects on events (Layers, Intervals, ...) are functions of the state and need no theorem here.
* **C106** layeredPermutations enumerates the combinations of layer permutations - *partial* (Props/LayeredPerm.lean). `choices` is the dictionary-ordered product of lists; `remaining` maps the odometer state to the choices that are still to come; `layeredAdvance` removes the first of them; induction over the requests. The refutations are evaluations in the kernel. Theorems: `Causets.C106_prefix`, `Causets.C106_all`, `Causets.C106_contents`, `Causets.C106_empty_refuted`, `Causets.C106_permutation_refuted`, `Causets.C106_list_refuted`, `Causets.C106_case`. The enumeration is proved in full. Refuted: the lists are no permutations of the layers (a crown gives two of three events, exDouble an event twice); list(layeredPermutations(C)) contains copies of the last combination, because the same list object is yielded again and again; for the empty event set NameError is raised.
* **C107** Results of permuted_old - *partial* (Props/PermutedOld.lean, Props/PermutedOldExt.lean). Invariants of the placement loop (number of placed events, distinct numbers within a layer, contents of the lists); `betterOf` keeps the minimum; the loop over combinations by induction. Theorems: `Causets.C107_results`, `Causets.C107_minimal`, `Causets.C107_exceptions`, `Causets.C107_permutation_partial`, `Causets.C107_refuted`, `Causets.C107_least_refuted`, `Causets.C107_degree`, `Causets.C107_numbers_refuted`, `Causets.C107_case`. The permutation property is proved if no list of a layer repeats an event, and refuted without (exDouble: event 3 twice, event 4 missing). For sets with a least event RuntimeError is raised. The number that is minimised is the number of extended causal relations (C107_degree). The numbers need not be a permutation of 1, …, n (C107_numbers_refuted: 2, 7, 1, 5, 2, 4, 5). Missing: when the two lists together represent the (extended) order.
* **C108** AntichainPermutations_old yields all permutations of an antichain - *partial* (Props/AntichainOld.lean). The distance matrix of an antichain within itself is constant off the diagonal (no common past or future inside an antichain); then a round of `__extend` from a list of two or more indices finds no insertion position and leaves the list as it is: induction over the rounds. Theorems: `Causets.C108_small`, `Causets.C108_two`, `Causets.C108_never`, `Causets.C108_past`, `Causets.C108_refuted`, `Causets.C108_case`. The behaviour on antichains is characterised completely; the promise of the docstring holds only for at most one event and is refuted for every antichain with two or more.
* **C109** Isomorphic causets give the same answers - *proved* (Props/Iso.lean). `CausalIso` is an order isomorphism between closed sets. Functions that read the state directly are transported clause by clause (`Lemmas/Iso.lean`); for queries with link memory, ranks, paths and components the specifications proved before are transported, and determine the answers. Theorems: `Causets.C109_events`, `Causets.C109_sets`, `Causets.C109_layers`, `Causets.C109_distances`, `Causets.C109_components`, `Causets.C109_causets`, `Causets.C109_links`, `Causets.C109_ranks`, `Causets.C109_paths`, `Causets.C109_matrices`, `Causets.C109_local`, `Causets.C109_realises`, `Causets.C109_central`, `Causets.C109_case`. CentralAntichain depends on the iteration order (C91): the answers correspond if the sets are enumerated correspondingly. The functions that sort by labels are not included.
* **C110** Time reversal exchanges past and future in all answers - *partial* (Props/Dual.lean). `Heap.dual` exchanges past and future in a state; every function of the dual state is the mirrored function of the state (`Lemmas/Dual.lean`), and the theorems of C109 are applied to the first state and the dual of the second one. Theorems: `Causets.C110_events`, `Causets.C110_sets`, `Causets.C110_layers_partial`, `Causets.C110_distances`, `Causets.C110_components`, `Causets.C110_links`, `Causets.C110_ranks_partial`, `Causets.C110_paths`, `Causets.C110_matrices`, `Causets.C110_central`, `Causets.C110_realises`, `Causets.C110_fromMatrix`, `Causets.C110_case`, `Causets.C110_refuted`, `Causets.C110_refuted_ranks`. Refuted for Layers and Ranks with a bound 0 of a set that is not an antichain: layer 0 and rank 0 are then always the future end of the set (C110_refuted). Everything else is proved. CentralAntichain if the sets are enumerated correspondingly.
* **C111** Paths and antipaths may be consumed step by step while the program does other things - *proved* (Props/Generators.lean). `Model/Generators.lean` models a suspended generator as a tree of reads of the memory and yields, and runs it against an arbitrary environment acting at every yield. The invariant `Undisturbed` (interval as in the start state) is kept by every step; the recursion is followed by induction on the recursion depth, with the continuation of the outer loops as a parameter. Theorems: `Causets.C111_steps`, `Causets.C111_extremal`, `Causets.C111_errors`, `Causets.C111_eager`, `Causets.C111_antipaths`, `Causets.C111_links`, `Causets.C111_new`, `Causets.C111_case`, `Causets.C111_proviso`. C111_proviso shows that the proviso on the interval is needed: an event put between a and b during the loop makes later values stale. A distance matrix given to Antipaths is assumed not to be written to.
* **C112** A loop over a causet never repeats or silently skips events while the causet changes - *proved* (Props/Generators.lean). One `next` of the set iterator is a function of the remaining events, the size at the start and the present causet; induction over the remaining events against an arbitrary environment. Theorems: `Causets.C112_unchanged`, `Causets.C112_changes`, `Causets.C112_mistake`, `Causets.C112_case`. The set iterator of CPython is modelled by its size check (Objects/setobject.c, setiter_iternext); a replacement that preserves the number of events is not noticed by CPython and not modelled faithfully.
* **C113** The default region of a spacetime contains the causal intervals of its points - *partial* (Props/Convex.lean). `CausallyConvex` is stated for the answers of the modelled `Causality()`. Bicone: triangle inequality. Counterexamples: explicit points in a plane; for de Sitter and black holes a point slightly outside the radius, by continuity of the ambient product and of the light ray time. Periodic: shift by `round`. All criteria are equivalences. Theorems: `Causets.C113_minkowski`, `Causets.C113_line`, `Causets.C113_tolerance`, `Causets.C113_default_minkowski`, `Causets.C113_default_periodic`, `Causets.C113_deSitter`, `Causets.C113_default_deSitter`, `Causets.C113_antiDeSitter_refuted`, `Causets.C113_default_refuted`, `Causets.C113_EF`, `Causets.C113_Schwarzschild_refuted`, `Causets.C113_default_blackHole`. Refuted as stated, decided completely: in Minkowski spacetime of 2 or more dimensions exactly the bicones that are not hollow are causally convex, in particular the default diamond (with the tolerance: up to its root). The default cube of periodic flat spacetimes ignores the periods: it is convex (up to shifts) iff every direction has a period of at most 1, and covers no point twice iff no period is below 1, so it fits only if all periods are 1. The default cylinder is convex for de Sitter iff alpha <= 1 (any cylinder: iff it reaches the horizon), for black holes iff Eddington-Finkelstein coordinates with r_S >= 1 (not for the default 0.5), never for anti-de Sitter and the base class.
* **C114** The printed text of a causal set shows it completely - *partial* (Props/Repr.lean). `AnswersWith` for the texts. The text is read back: integers, quoted strings and bracketed lists split uniquely from what follows them; equal texts give equal lists of entries, equal entries give equal links by labels, and links generate the order. Refutations by explicit reachable states. Theorems: `Causets.C114_str`, `Causets.C114_str_zero_refuted`, `Causets.C114_event`, `Causets.C114_causet`, `Causets.C114_complete`, `Causets.C114_unlabelled_refuted`, `Causets.C114_strings_refuted`. Proved: the contents of the texts, no observable change, and that the text of a causal set with different labels that are nonzero integers or nonempty strings without quotes determines it (order, labels and coordinates). Refuted in general: the label 0 and the empty label are not shown (`#Event`), quotes in labels are not escaped (one event can print like two), and the text of unlabelled causal sets does not determine them.
* **C115** Sprinkles in single precision are causal sets in their region - *partial* (Props/Float32.lean, Props/Float32Ball.lean, Props/Float32Exact.lean, Props/Float32Round.lean, Props/Float32Sprinkle.lean). Floating point formats with p bits in general (`FloatNum`), roundings to nearest by their specification (`IsRoundingTo`), IEEE ties-to-even shown to be one. Standard error analysis with the relative error 2^-24 and the absolute error 2^-150 (underflow). Witnesses on a grid of 2^-22, with all roundings decided by distance, no ties. Balls: error analysis of the norm, the quotient and the product, then the triangle inequality for the distance. Theorems: `Causets.C115_ieee`, `Causets.C115_directions`, `Causets.C115_2D`, `Causets.C115_accuracy`, `Causets.C115_exact`, `Causets.C115_create`, `Causets.C115_tolerance`, `Causets.C115_box`, `Causets.C115_ball`, `Causets.C115_cylinder`, `Causets.C115_refuted`, `Causets.C115_sprinkle_refuted`, `Causets.C115_box_refuted`. The refuted sentences are in brackets, with witnesses. Periods: C119, curved spacetimes: C120. `C115_ball` assumes that the norm of the normal numbers is between 2^-50 and 2^50 (they are random). Missing: overflow. That NumPy 1 computes `0 + np.float32` and `np.float32 - float` in float64 and NumPy 2 in float32 is an assumption about NumPy (both are covered).
* **C116** Causality with infinite, undefined and very large coordinates - *partial* (Props/Ieee.lean, Props/IeeeAgree.lean, Props/IeeeBH.lean, Props/IeeeCurved.lean, Props/IeeeFlat.lean). `Model/Ieee.lean` repeats all causality functions on values `nan`, `-inf`, `inf`, finite, with a rounding and then an overflow after every operation, and the exceptions of the `math` module and of `**`. Agreement by bounding every intermediate result by a power of 2 (roundings fix powers of 2, sums of n terms by n times a power); directions and nan by the form of the answers; refutations by explicit points (2^600, 2^900; sinh 357 squared). Theorems: `Causets.C116_directions`, `Causets.C116_nan`, `Causets.C116_agree`, `Causets.C116_infinite_time`, `Causets.C116_infinite_space`, `Causets.C116_2D`, `Causets.C116_curved_directions`, `Causets.C116_curved_nan`, `Causets.C116_deSitter_agree`, `Causets.C116_antiDeSitter_agree`, `Causets.C116_BH_directions`, `Causets.C116_BH_nan`, `Causets.C116_BH_agree`, `Causets.C116_BH_horizon_EF`, `Causets.C116_BH_horizon_Schwarzschild`, `Causets.C116_deSitter_overflow`, `Causets.C116_antiDeSitter_infinite`, `Causets.C116_overflow_refuted`, `Causets.C116_deSitter_refuted`. The refuted sentences are in brackets, with witnesses. Missing: points within 2^-400 of the horizon but not on it (with moderate radii no binary64 number is that close), signed zeros (they have no effect, see the head of Model/Ieee.lean).
* **C117** Coordinate rows of any length - *partial* (Props/Rows.lean, Props/RowsBroadcast.lean, Props/RowsCases.lean, Props/RowsRelate.lean). `Model/Rows.lean` repeats the causality functions, `relate`, `create` and the constructor on lists of numbers, with IndexError beyond the end and NumPy's broadcasting of one-dimensional arrays. Three outcomes per spacetime by cases; the loops of `relate` by induction over the list of events with an invariant on what was written before the exception; without exceptions `relate` is the one of C42, which gives the order. Theorems: `Causets.C117_errors`, `Causets.C117_fit`, `Causets.C117_flat_values`, `Causets.C117_curved_values`, `Causets.C117_curved_broadcast`, `Causets.C117_curved_refuted`, `Causets.C117_first_values`, `Causets.C117_relate_ok`, `Causets.C117_relate_raises`, `Causets.C117_new`, `Causets.C117_unembedded`, `Causets.C117_dimension_refuted`, `Causets.C117_lost_refuted`, `Causets.C117_case`. The refuted sentences are in brackets, with witnesses. In curved spacetimes a single space coordinate is repeated for the differences only, so that the order is not that of any points (C117_curved_refuted).
* **C118** repr of a spacetime is an expression for it - *partial* (Props/ReprSpacetime.lean). `Model/ReprSpacetime.lean`: the tokens of the texts, a recursive descent parser for calls with the kinds of arguments that occur, evaluation of arguments, binding of parameters and the constructors. Parsing a tuple of any length by induction; injectivity from the round trip; `str` by cutting the text at the first hyphen. Theorems: `Causets.C118_roundtrip`, `Causets.C118_exact`, `Causets.C118_str`, `Causets.C118_fails_refuted`, `Causets.C118_case`. The refuted sentence is in brackets; which texts evaluate and to what is decided completely (C118_exact). Texts are modelled as lists of Python tokens; that the characters are split into these tokens and numbers are read as they were printed is assumed of Python. Parameters are int or float, not NumPy scalars.
* **C119** Periodic flat spacetimes in single precision - *partial* (Props/Float32Torus.lean, Props/Float32TorusExact.lean, Props/Float32Types.lean). `Model/Float32Period.lean`: every number carries its type, which decides how a result is rounded. Error analysis as in C115, uniformly in the types; induction over the sum with changing types; two comparison lemmas. Witness on a grid of 2^-26. Theorems: `Causets.C119_ieee`, `Causets.C119_directions`, `Causets.C119_accuracy`, `Causets.C119_exact`, `Causets.C119_create`, `Causets.C119_numpy2`, `Causets.C119_numpy1`, `Causets.C119_wide_period`, `Causets.C119_refuted`. The refuted sentence is in brackets, with a witness. All else is proved. The promotion rules (a Python number counts as float64 with NumPy 1 and as the type of the NumPy scalar with NumPy 2) are assumptions about NumPy. No overflow.
* **C120** Curved spacetimes in single precision - *proved* (Props/Float32BH.lean, Props/Float32Curved.lean, Props/Float32CurvedExact.lean, Props/Float32CurvedNum.lean). `Model/Float32Curved.lean`: the causality functions with a rounding after every operation, in the type that NumPy gives to it. The error analysis of C104 with a general unit roundoff; the converted Schwarzschild radius compares like the exact one away from the horizon. Exact orders as in C115. Theorems: `Causets.C120_deSitter`, `Causets.C120_antiDeSitter`, `Causets.C120_deSitter_numbers`, `Causets.C120_exact`, `Causets.C120_create`, `Causets.C120_directions`, `Causets.C120_BH_accuracy`, `Causets.C120_BH_directions`, `Causets.C120_BH_infall`, `Causets.C120_BH_sides`. The promotion rules of NumPy are assumptions, both are covered. The mathematical library is assumed to be accurate to 2^-52 (relative, plus absolute), as in C104, and the logarithm of NumPy to 2^-23. No overflow.
* **C121** Sprinkling into a region of another dimension - *partial* (Props/SprinkleDim.lean). `Model/SprinkleDim.lean`: `_sprinkle_coords` with the lengths of the arrays, NumPy broadcasting and assignment. For the dimension of the causet it is the model of C48. Theorems: `Causets.C121_same`, `Causets.C121_same_methods`, `Causets.C121_zero`, `Causets.C121_diagonal`, `Causets.C121_lift`, `Causets.C121_error`, `Causets.C121_cylinder_1d`, `Causets.C121_failed_state`, `Causets.C121_refuted`. The sentence in brackets is refuted (C121_refuted). All the others are proved. As in C48, not all normal draws of a row are 0 (the code then divides by zero), and bicones leave the memory uninitialised. No overflow of float32.
* **C122** Symmetries of the spacetime leave the causal set unchanged - *partial* (Props/Subspaces.lean, Props/Symmetry.lean, Props/SymmetryCurved.lean, Props/SymmetryMaps.lean). `C122_create` says that `create` only depends on the values of the causality function at the coordinates. The values are invariant since they are functions of differences, squared distances and, for boosts (and translations of time in de Sitter spacetime, which boost the embedding space), the interval. Theorems: `Causets.C122_create`, `Causets.C122_Minkowski`, `Causets.C122_boost`, `Causets.C122_translate`, `Causets.C122_space`, `Causets.C122_flat`, `Causets.C122_curved_rotations`, `Causets.C122_deSitter_time`, `Causets.C122_antiDeSitter_time`, `Causets.C122_blackHole`, `Causets.C122_reversal`, `Causets.C122_reversal_refuted`, `Causets.C122_boost_refuted`, `Causets.C122_antiDeSitter_refuted`. The sentence in brackets is refuted: a boost reverses the relation of two points within the tolerance (C122_boost_refuted), and in anti-de Sitter spacetime a translation of time by pi times the radius reverses all relations (C122_antiDeSitter_time, C122_antiDeSitter_refuted). All else is proved, over real numbers (rounding: C104, C115). Reversal of time is proved for flat and (anti-)de Sitter spacetimes; C122_reversal_refuted shows that it is no symmetry of black holes, as physics has it.
* **C123** The unit of length does not matter - *partial* (Props/Units.lean, Props/UnitsVolume.lean). Every function of the model is homogeneous in the lengths. Causal sets by `C122_create`. Theorems: `Causets.C123_causality`, `Causets.C123_create`, `Causets.C123_region`, `Causets.C123_sprinkle`, `Causets.C123_volume`, `Causets.C123_lengthScale`, `Causets.C123_refuted`, `Causets.C123_unit_refuted`. The sentence in brackets is refuted: the tolerance is the absolute number 1e-12, so that in large enough units every two points of Minkowski spacetime are causally related (C123_refuted), for example points at unit distance in a unit ten million times as long (C123_unit_refuted). All else is proved, over real numbers.
* **C124** The coordinate systems of a black hole describe the same black hole - *proved* (Props/Metrics.lean). Specification: the coordinate transformation (toEddingtonFinkelstein). Proved for the causality functions by cases over the sides of the horizon and then for create by C122_create. Theorems: `Causets.C124_metrics`, `Causets.C124_create`. Exact real arithmetic; events on the horizon have no Schwarzschild time.
* **C125** Two-dimensional spacetimes yield 2D orders - *partial* (Props/LightCone.lean). Light-cone coordinates: t/alpha -+ artanh(r/alpha) for de Sitter spacetime, those of Kruskal and Szekeres for black holes. The causality functions are reduced to them by identities; a product order of two coordinates is numbered lexicographically to get the permutation; joined with C98 for EmbeddedCauset. Theorems: `Causets.C125_deSitter`, `Causets.C125_EddingtonFinkelstein`, `Causets.C125_Schwarzschild`, `Causets.C125_lightCones`, `Causets.C125_embedded`, `Causets.C125_refuted`. Proved with exact comparisons, or for points where the tolerance makes no difference. Refuted with the tolerance of the library: create makes a causal set of three points of Minkowski spacetime whose order is no product of two coordinates (it is not transitive).
* **C126** Spacetimes agree where they overlap - *partial* (Props/Subspaces.lean). The sums over the additional coordinates vanish; the distance along a period is the plain distance up to half a period. Joined with create by C122_create. Theorems: `Causets.C126_periodic`, `Causets.C126_periodic_sharp`, `Causets.C126_Minkowski`, `Causets.C126_curved`, `Causets.C126_create`, `Causets.C126_refuted`. The sentence in brackets is refuted (C126_refuted): the tolerance is added to the distance in two dimensions but to its square in three, so that two points of a plane 1e-6 apart at the same time are related in three dimensions only. Half a period is sharp (C126_periodic_sharp).
* **C127** Moving the region moves the sprinkle - *partial* (Props/MoveRegion.lean). The centre is added once to every coordinate, which is read off the loops; joined with sprinkle by C122_create. Specification: CoordinateShape.moved changes the centre only. Theorems: `Causets.C127_region`, `Causets.C127_volume`, `Causets.C127_sprinkle`, `Causets.C127_causet`, `Causets.C127_flat`, `Causets.C127_refuted`. Proved for balls, cylinders, cubes and cuboids (regions and volumes for all shapes); refuted for bicones, for which the code computes no points (C48). Real arithmetic.
* **C128** Creating events in several steps, or in another order, gives the same causal set - *proved* (Props/CreateSteps.lean). Induction over the sequence of create calls with a closed form of the state: one event per point in the order of creation and the relation given by the causality of the points (relate clears and recomputes all relations). Theorems: `Causets.C128_state`, `Causets.C128_steps`, `Causets.C128_order`, `Causets.C128_agree`, `Causets.C128_links`, `Causets.C128_flat`. Points at the same place or, with a tolerance, at equal times are outside the hypothesis: their relation depends on the enumeration order of the set of events.
* **C129** Creating further events leaves the relations of the existing events unchanged - *proved* (Props/CreateMore.lean). The closed form of the state (C128_state) before and after the further calls, and the exactness of the links after create (C42_history). Theorems: `Causets.C129_more`, `Causets.C129_links`. Points no two of which precede each other (for tolerances: for which the two answers of the causality function agree), as in C128.
* **C130** Powers of the matrices of a causet count intervals and paths - *proved* (Props/MatrixPowers.lean). Entries of the matrices by C37; the square is a sum over the listed events; for links, induction over the exponent with the set of paths from an event, whose members are determined by their second event; Paths by C33. Theorems: `Causets.C130_intervals`, `Causets.C130_count`, `Causets.C130_paths`, `Causets.C130_causet`, `Causets.C130_default`. Specification: natMatrix is astype(int), the powers are those of Mathlib. The default order needs labels that can be sorted, as in C37.
* **C131** Symmetries of permutations are symmetries of their 2D orders - *proved* (Props/PermSymmetry.lean). Events and relation of both causets by C10; the correspondences are u to the position of u in P, u to u, and u to n + 1 - u. Theorems: `Causets.C131_inverse`, `Causets.C131_reverse`, `Causets.C131_dual`, `Causets.C131_complement`. The correspondence of the events is a bijection of the two event sets; nothing is said about the labels.
* **C132** Rank, path lengths and interval size bound each other - *proved* (Props/PathBounds.lean). From C31, C33 and C26: every path is a duplicate-free list of members of the interval; a path through a chain interval visits every member. Theorems: `Causets.C132_bounds`, `Causets.C132_unrelated`, `Causets.C132_chain`. Rank needs a recursion limit of at least the number of events (as in C31).
* **C133** Powers of PastMatrix count chains, and the inverse of 1 - P counts all of them - *proved* (Props/MatrixChains.lean). Chains are built from their first event by induction on the power; chains have no event twice, so that the powers vanish; the inverse is the finite geometric sum. Theorems: `Causets.C133_powers`, `Causets.C133_zero`, `Causets.C133_nilpotent`, `Causets.C133_inverse`, `Causets.C133_paths`, `Causets.C133_causet`. The powers and the inverse are those of the integer matrix (M.astype(int)), in exact arithmetic. The inverse is the sum over paths that discrete propagators on causal sets are computed with.
* **C134** Rank obeys the triangle inequality, longest paths the reversed one - *proved* (Props/Triangle.lean). From C31 and C34: paths are joined and cut at b; every step of a chain that is no link can be refined to a longer path. Theorems: `Causets.C134_rank`, `Causets.C134_geodesics`, `Causets.C134_longest`. Rank needs a recursion limit of at least the number of events (as in C31).

## Coverage: every function of /repo and the model file that cites it

(`-`: not modelled; the test files of /repo are left out.)

* `calculations.py`: HarmonicNumber (15-28): Calculations.lean; HarmonicNumbers (32-50): Calculations.lean; HarmonicNumberFraction (53-60): Calculations.lean; HarmonicNumberFractions (63-73): Calculations.lean; NewtonsMethod (76-102): Calculations.lean, LightCone.lean.
* `causet.py`: Causet.__init__ (22-32): Causet.lean, Objects.lean; Causet.__iter__ (34-35): Generators.lean, Iterables.lean, Objects.lean; Causet.__repr__ (37-38): Repr.lean; Causet.FromPermutation (41-68): Causet.lean; Causet.NewChain (71-78): Causet.lean; Causet.NewAntichain (81-87): Causet.lean; Causet.NewSimplex (90-112): Causet.lean; Causet.NewFence (115-145): Causet.lean; Causet.NewCrown (148-153): Causet.lean; Causet.NewKROrder (156-165): -; Causet.FromPastMatrix (168-198): Causet.lean, TextFile.lean; Causet.FromFutureMatrix (201-205): Causet.lean; Causet.FromTextFile (208-221): TextFile.lean; Causet.merge (224-237): Causet.lean, Iterables.lean, Objects.lean; Causet.add (239-249): Causet.lean, Iterables.lean, Objects.lean; Causet.discard (251-261): Causet.lean, Iterables.lean, Objects.lean; Causet.len (264-268): Causet.lean; Causet.Card (271-275): Causet.lean; Causet.link (277-288): Causet.lean, Objects.lean; Causet.unlink (290-296): Causet.lean, Objects.lean; Causet.LinkCount (298-306): CausetLinks.lean; Causet.PastMatrix (308-323): Causet.lean; Causet.saveAsCSV (325-331): TextFile.lean; Causet.FutureMatrix (333-338): Causet.lean; Causet.LinkPastMatrix (340-355): CausetLinks.lean; Causet.LinkFutureMatrix (357-362): Causet.lean, CausetLinks.lean; Causet.find (364-372): Causet.lean; Causet.findAny (374-380): Causet.lean, Generators.lean; Causet.findAll (382-386): Causet.lean; Causet.__contains__ (388-389): Causet.lean; Causet.__sub__ (391-392): Causet.lean; Causet.__rsub__ (394-395): Causet.lean; Causet.__or__ (397-398): Causet.lean; Causet.__ror__ (400-401): Causet.lean; Causet.__and__ (403-404): Causet.lean; Causet.__rand__ (406-407): Causet.lean; Causet.__xor__ (409-410): Causet.lean; Causet.__rxor__ (412-413): Causet.lean; Causet.difference (415-416): Causet.lean; Causet.intersection (418-419): Causet.lean; Causet.symmetric_difference (421-423): Causet.lean; Causet.union (425-426): Causet.lean; Causet.isChain (428-444): Causet.lean; Causet.isPath (446-468): Causet.lean, CausetLinks.lean; Causet.isAntichain (470-484): Causet.lean; Causet.PastInf (487-491): Causet.lean; Causet.FutureInf (494-499): Causet.lean; Causet.PastInfCard (502-506): Causet.lean; Causet.FutureInfCard (509-513): Causet.lean; Causet.PastInfOf (516-521): Causet.lean; Causet.FutureInfOf (524-529): Causet.lean; Causet.PastInfCardOf (532-537): Causet.lean; Causet.FutureInfCardOf (540-545): Causet.lean; Causet.PastOf (548-565): Causet.lean, Objects.lean; Causet.FutureOf (568-585): Causet.lean, Objects.lean; Causet.ConeOf (588-605): Causet.lean, Objects.lean; Causet.SpacelikeTo (607-611): Causet.lean; Causet.Interval (614-629): Causet.lean; Causet.IntervalCard (632-645): Causet.lean; Causet.PerimetralEvents (648-657): CausetLinks.lean; Causet.PerimetralEventCount (660-668): CausetLinks.lean; Causet.InternalEvents (671-680): CausetLinks.lean; Causet.InternalEventCount (683-692): CausetLinks.lean; Causet.CentralAntichain (694-716): Causet.lean; Causet.Layers (719-755): Causet.lean; Causet.LayerNumbers (758-783): Causet.lean; Causet.Ranks (786-819): CausetLinks.lean; Causet.RankNumbers (822-845): CausetLinks.lean; Causet.Paths (848-929): CausetLinks.lean, Generators.lean; Causet.SmallestIntervalCard (931-991): Causet.lean; Causet.DistanceMatrix (993-1053): Distance.lean; Causet.Antipaths (1055-1091): Distance.lean, Generators.lean, Iterables.lean; Causet.disjoint (1093-1120): Causet.lean; Causet.isDisjoint (1122-1127): Causet.lean; Causet.sortedByLabels (1129-1145): Causet.lean; Causet.sortedByCausality (1147-1164): Causet.lean; Causet.layered (1166-1185): Causet.lean.
* `causetevent.py`: CausetEvent.__init__ (34-67): Base.lean, Embedding.lean, Event.lean, Objects.lean, Rows.lean; CausetEvent.hasBeenLinked (69-74): Base.lean, Event.lean, Objects.lean; CausetEvent._addToPast (76-89): Base.lean, Event.lean, Objects.lean; CausetEvent._addToFuture (91-104): Base.lean, Event.lean, Objects.lean; CausetEvent._discard (106-126): Base.lean, Event.lean, Objects.lean; CausetEvent.disjoin (128-139): Base.lean, Event.lean, Objects.lean; CausetEvent.__str__ (141-146): Base.lean, Repr.lean; CausetEvent.__repr__ (148-185): Base.lean, Repr.lean; CausetEvent.__lt__ (187-188): Base.lean, Event.lean; CausetEvent.__le__ (190-191): Base.lean, Event.lean; CausetEvent.__gt__ (193-194): Base.lean, Event.lean; CausetEvent.__ge__ (196-197): Base.lean, Event.lean; CausetEvent.link (199-211): Base.lean, Event.lean, Objects.lean; CausetEvent.unlink (213-218): Base.lean, Event.lean, Objects.lean; CausetEvent.isLink (221-230): Base.lean, Event.lean, Objects.lean; CausetEvent.isPastLink (232-240): Base.lean, Event.lean; CausetEvent.isFutureLink (242-250): Base.lean, Event.lean; CausetEvent.isCausalTo (252-256): Base.lean, Event.lean; CausetEvent.isLinkedTo (258-262): Base.lean, Event.lean; CausetEvent.isSpacelikeTo (264-269): Base.lean, Event.lean; CausetEvent.LinkCountOf (272-273): Base.lean, Event.lean; CausetEvent.Past (276-281): Base.lean, Event.lean, Objects.lean; CausetEvent.Future (284-289): Base.lean, Event.lean, Objects.lean; CausetEvent.Cone (292-297): Base.lean, Event.lean, Objects.lean; CausetEvent.PresentOrPast (300-305): Base.lean, Event.lean, Objects.lean; CausetEvent.PresentOrFuture (308-313): Base.lean, Event.lean, Objects.lean; CausetEvent.Spacelike (315-320): Base.lean, Event.lean; CausetEvent.PastCard (323-327): Base.lean, Event.lean; CausetEvent.FutureCard (330-334): Base.lean, Event.lean; CausetEvent.ConeCard (337-342): Base.lean, Event.lean; CausetEvent.SpacelikeCard (344-352): Base.lean, Event.lean; CausetEvent.LinkPast (355-364): Base.lean, Event.lean, Objects.lean; CausetEvent.LinkFuture (367-376): Base.lean, Event.lean, Objects.lean; CausetEvent.LinkCone (379-388): Base.lean, Event.lean; CausetEvent.LinkPastCard (391-399): Base.lean, Event.lean; CausetEvent.LinkFutureCard (402-410): Base.lean, Event.lean; CausetEvent.LinkConeCard (413-422): Base.lean, Event.lean; CausetEvent.copy (424-439): Base.lean, Event.lean, Objects.lean; CausetEvent.Rank (441-463): Base.lean, Event.lean; CausetEvent.Position (466-473): Base.lean, Diagram.lean, Embedding.lean; CausetEvent.Position (476-484): Base.lean, Diagram.lean, Embedding.lean; CausetEvent.isEmbedded (487-491): Base.lean, Embedding.lean; CausetEvent.embed (493-504): Base.lean, Embedding.lean; CausetEvent.disembed (506-510): Base.lean, Embedding.lean; CausetEvent.Coordinates (513-523): Base.lean, Embedding.lean; CausetEvent.CoordinatesDim (526-533): Base.lean, Embedding.lean.
* `causetpermutations.py`: AntichainPermutations (15-30): Permutations.lean; AntichainPermutations_old (33-134): AntichainOld.lean; layeredPermutations (137-170): Permutations.lean, PermutedOld.lean; permuted_old (173-290): PermutedOld.lean; findClosedFences (295-429): Permutations.lean; __perm_layeredsubset (432-465): Permutations.lean; __perm_jointsubset (468-507): Permutations.lean; __perm_disjointsubsets (510-531): Permutations.lean; permuted (534-545): Permutations.lean.
* `causetplotting.py`: setDefaultColors (30-39): Colors.lean; plot_parameters (42-290): Plotting.lean; dynamic_parameter (293-323): Plotting.lean; Plotter (326-683): PlotCalls.lean, Plotting.lean; plot (686-701): Diagram.lean; plotDiagram (704-723): Diagram.lean.
* `colorschemes.py`: pickColorScheme (83-91): Colors.lean; setGlobalColorScheme (94-99): Colors.lean; getGlobalColorScheme (102-106): Colors.lean; getColor (109-117): Colors.lean; convertColorsInDict (120-131): Colors.lean; convertColorsInList (134-145): Colors.lean.
* `embeddedcauset.py`: EmbeddedCauset.__raiseDimValueError__ (28-31): EmbInit.lean; EmbeddedCauset.__init__ (33-118): EmbInit.lean, Rows.lean; EmbeddedCauset._Permutation_Coords (121-137): EmbInit.lean, EmbPermutation.lean; EmbeddedCauset.FromPermutation (140-150): EmbInit.lean, EmbPermutation.lean; EmbeddedCauset.Shape (153-157): EmbInit.lean; EmbeddedCauset.Spacetime (160-164): EmbInit.lean; EmbeddedCauset.Dim (167-171): EmbInit.lean; EmbeddedCauset.Density (174-179): Sprinkling.lean; EmbeddedCauset.LengthScale (182-187): Sprinkling.lean; EmbeddedCauset.create (189-209): Embedding.lean, Rows.lean; EmbeddedCauset.relate (211-237): Embedding.lean, Rows.lean; EmbeddedCauset.relabel (239-251): Embedding.lean.
* `shapes.py`: CoordinateShape.__init__ (31-136): EmbPermutation.lean, Float32.lean, Shapes.lean; CoordinateShape.__str__ (138-143): Shapes.lean; CoordinateShape.__repr__ (145-148): Shapes.lean; CoordinateShape.Dim (151-155): Shapes.lean; CoordinateShape.Name (158-162): Shapes.lean; CoordinateShape.Center (165-169): Shapes.lean; CoordinateShape.Parameter (171-175): Shapes.lean; CoordinateShape.Volume (178-213): Shapes.lean; CoordinateShape.MaxEdgeHalf (215-230): Shapes.lean; CoordinateShape.Limits (232-249): Shapes.lean; CoordinateShape.plot (251-367): Shapes.lean; RectangleEdge (370-379): Shapes.lean; CircleEdge (382-404): Shapes.lean; EllipseEdge (407-429): Shapes.lean; BiconeEdge (432-452): Shapes.lean; CylinderCutEdge (455-472): Shapes.lean; CuboidSurface (475-504): Shapes.lean; CubeSurface (507-513): Shapes.lean; BallSurface (516-531): Shapes.lean; CylinderSurface (534-566): Shapes.lean; OpenConeSurface (569-592): Shapes.lean.
* `spacetimes.py`: Spacetime.__init__ (34-38): EmbInit.lean, ReprSpacetime.lean; Spacetime.__str__ (40-41): EmbInit.lean, ReprSpacetime.lean; Spacetime.__repr__ (43-44): EmbInit.lean, ReprSpacetime.lean; Spacetime.Dim (47-51): EmbInit.lean; Spacetime.Name (54-58): EmbInit.lean; Spacetime.MetricName (61-65): EmbInit.lean; Spacetime.Parameter (67-71): EmbInit.lean; Spacetime.DefaultShape (73-78): EmbInit.lean; Spacetime.Causality (80-94): EmbInit.lean, FloatCausality.lean, Ieee.lean, Rows.lean, Spacetimes.lean; Spacetime._T_slice_sampling (96-104): LightCone.lean; Spacetime._XT_slice (106-112): LightCone.lean; Spacetime._XY_slice (114-120): LightCone.lean; Spacetime._XYZ_slice (122-129): LightCone.lean; Spacetime.ConePlotter (131-240): LightCone.lean, PlotCalls.lean, Plotting.lean; FlatSpacetime.__init__ (254-278): EmbInit.lean, Float32Period.lean, ReprSpacetime.lean, Spacetimes.lean; FlatSpacetime.__repr__ (280-282): ReprSpacetime.lean, Spacetimes.lean; FlatSpacetime.DefaultShape (284-287): EmbInit.lean; FlatSpacetime.Causality (289-341): EmbInit.lean, Float32.lean, Float32Period.lean, FloatCausality.lean, Ieee.lean, Rows.lean, Spacetimes.lean; FlatSpacetime.ConePlotter (343-461): LightCone.lean, PlotCalls.lean, Plotting.lean; _dSSpacetime.__init__ (473-484): FloatCausality.lean, Ieee.lean, Spacetimes.lean; _dSSpacetime.Causality (486-488): -; _dSSpacetime._XT_slice2 (490-492): LightCone.lean; _dSSpacetime._XT_slice (494-521): LightCone.lean; deSitterSpacetime.__init__ (529-541): EmbInit.lean; deSitterSpacetime.Causality (543-564): EmbInit.lean, Float32Curved.lean, FloatCausality.lean, Ieee.lean, Rows.lean, Spacetimes.lean; deSitterSpacetime._XT_slice2 (566-569): LightCone.lean; deSitterSpacetime._XY_slice (571-613): LightCone.lean; AntideSitterSpacetime.__init__ (625-636): EmbInit.lean; AntideSitterSpacetime.Causality (638-654): EmbInit.lean, Float32Curved.lean, FloatCausality.lean, Ieee.lean, Rows.lean, Spacetimes.lean; BlackHoleSpacetime.__init__ (664-687): EmbInit.lean, ReprSpacetime.lean, Spacetimes.lean; BlackHoleSpacetime.__repr__ (689-691): ReprSpacetime.lean; BlackHoleSpacetime._light_EF (693-716): Float32Curved.lean, FloatBH.lean, Horizon.lean, Ieee.lean, LightCone.lean, Spacetimes.lean; BlackHoleSpacetime._light_S (718-746): Float32Curved.lean, FloatBH.lean, Horizon.lean, Ieee.lean, LightCone.lean, Spacetimes.lean; BlackHoleSpacetime.Causality (748-790): EmbInit.lean, Float32Curved.lean, FloatBH.lean, Horizon.lean, Ieee.lean, Rows.lean, Spacetimes.lean; BlackHoleSpacetime._XT_slice (792-883): LightCone.lean.
* `sprinkledcauset.py`: SprinkledCauset.__init__ (25-48): EmbInit.lean, Sprinkling.lean; SprinkledCauset.Intensity (51-57): Sprinkling.lean; SprinkledCauset.Density (60-61): Sprinkling.lean; SprinkledCauset.LengthScale (64-65): Sprinkling.lean; SprinkledCauset._sprinkle_coords (67-127): Float32.lean, SprinkleDim.lean, Sprinkling.lean; SprinkledCauset.sprinkle (129-142): Float32.lean, SprinkleDim.lean, Sprinkling.lean; SprinkledCauset.intensify (144-159): SprinkleDim.lean, Sprinkling.lean; SprinkledCauset.create (161-170): Sprinkling.lean; SprinkledCauset.add (172-175): Sprinkling.lean; SprinkledCauset.discard (177-180): Sprinkling.lean.
