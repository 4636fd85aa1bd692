"""Writes DESIGN.md: the text below, and tables generated from properties.jsonl, tools/claims.py and the comments of the model."""
import json, os, re, subprocess, sys
HERE = os.path.dirname(os.path.abspath(__file__))
ROOT = os.path.join(HERE, '..')
sys.path.insert(0, HERE)

METHOD = {
'C01': "`Heap.Valid` (ids bounded, past and future mirrored, irreflexive, transitive) is an invariant of every operation; induction over histories (`Reachable`).",
'C02': "Case analysis of the constructor on a valid heap; the relations after it are described by a set equation.",
'C03': "Every cache operation keeps `CacheOK` (a cache that exists is the covering relation); all link queries return the covering relation, hence the same with any subset of caches.",
'C04': "From validity: exactly one of <, =, >, spacelike; the comparison methods decide them.",
'C05': "Cardinalities of the sets returned, by finite set arithmetic on valid heaps.",
'C06': "Refuted by a reachable witness; what the bitwise expression computes is proved.",
'C07': "Set equations for all fields after `disjoin`; order of the others untouched.",
'C08': "Refuted by a reachable witness, for every iteration order. The link memory after the loop is computed for each event from the part of the iteration before and after it (`Lemmas/DisjoinExact.lean`), which gives the exact condition for right link queries.",
'C09': "Loop invariant (subset of the closure), termination by a strictly growing bounded set; least fixed point.",
'C10': "General lemma on constructing events one after another with given pasts; permutation combinatorics.",
'C11': "Instances of the lemma of C10.",
'C12': "Loop invariants over layers; explicit relation of the fence.",
'C13': "Induction over dimensions; bijection with the faces of the simplex (non-empty subsets).",
'C14': "Loop invariant over rows and columns of the matrix; `PastMatrix` read back entry by entry.",
'C15': "Loops of length 1 and 2 raise (proved); a cycle of length 3 is accepted (witness).",
'C16': "Transitive closure for sorted matrices by induction over rows; witnesses otherwise.",
'C17': "Double loop invariant; the new order is the union with a product.",
'C18': "The double loop is a fold over the list of pairs; induction over the list gives the link memory of every event after every prefix (`Lemmas/MergeExact.lean`), hence the exact condition for right link queries; witness with stale memory.",
'C19': "Set algebra; outcome of `unlink=True` included.",
'C20': "Set algebra for every operator; witness for the reflected minus.",
'C21': "Counting argument: the test on cardinalities is equivalent to the pairwise definition; closure needed (witness).",
'C22': "The code's degree test is characterised; accepted for every saturated path; crowns are a witness against the converse.",
'C23': "Minimal and maximal elements by definition; finite sets.",
'C24': "Folds over an arbitrary iteration order are unions.",
'C25': "The result is empty for every input (refutation).",
'C26': "Set equations; cardinalities by counting on valid heaps.",
'C27': "Partition of the open interval; counting.",
'C28': "Invariant of the greedy fold over the sorted imbalance keys: the result stays an antichain and every event passed is related to it.",
'C29': "Layer numbers against declarative predicates (IsLayerUp, IsLayerDown: least upper bound of interval sizes above or below the set); sign, monotony.",
'C30': "Loop invariant of the layer recursion; height function; witness for non-convex sets.",
'C31': "Fuelled recursion = shortest path length in the link graph; recursion depth bounded by the number of events.",
'C32': "Loop invariant over ranks; relation to C31.",
'C33': "Depth-first search enumerates every saturated path exactly once (list without duplicates).",
'C34': "Extremal lengths by comparison with C33.",
'C35': "Connected components of the comparability graph; loop invariant.",
'C36': "Sorting by any key order that extends causality; insertion of arbitrary iteration orders.",
'C37': "Entry-wise description of the matrices.",
'C38': "Cache equals covering relation after the loop; closure needed (witness).",
'C39': "Minimum over intervals; symmetric.",
'C40': "Loop invariant of the distance propagation; graph distance in the antichain graph.",
'C41': "Search over the matrix yields exactly the shortest paths.",
'C42': "Double loop over events with an arbitrary causality function and iteration order; histories of `create`/`relate`/`add`.",
'C43': "Real analysis: Minkowski triangle inequality; tolerance and periods refuted by witnesses.",
'C44': "De Sitter through its embedding (reversed Cauchy-Schwarz), black holes through monotone ray times; anti-de Sitter refuted.",
'C45': "Grid points in light-cone coordinates; same order as C10.",
'C46': "Induction over the rows; labels over histories of create.",
'C47': "Invariant over histories of calls that do not raise; witnesses for calls that raise.",
'C48': "Ranges of draws; the bicone branch is unreachable, so rows stay uninitialised (refutation).",
'C49': "Induction over the sums; agreement of four functions, exactly up to int64 overflow.",
'C50': "int64 arithmetic modulo 2^64; finite exactly below the threshold or when 65536 does not divide k; witness k = 65536.",
'C51': "Induction over iterations; exact characterisation of the result, residual and interval.",
'C52': "Case analysis of the constructor against the documented ranges.",
'C53': "Lebesgue measure in Mathlib (products, balls, cones by integration over slices).",
'C54': "Extremal coordinates, attained in the closed shape.",
'C55': "Trigonometric parametrisation; shoelace formula for orientation and area.",
'C56': "Dictionary semantics as association lists; histories of the global scheme.",
'C57': "Loop over pairs against the reserved list; cache state transformer.",
'C58': "Real inequalities for the three fading functions.",
'C59': "Exact outcome of the code for every set: list too short, or TypeError.",
'C60': "Outcome for every start by analysis of the search loop.",
'C61': "State machine of the attributes over all histories; witness for new events.",
'C62': "Text level: printing and parsing of the matrix are inverse.",
'C63': "List search over an arbitrary iteration order.",
'C64': "Fresh event; frame condition.",
'C65': "Any argsort permutation; labels are ranks of the coordinate.",
'C66': "Fuelled recursion; ends for connected antichains, witnesses otherwise.",
'C67': "Case analysis of the constructor; printing refuted.",
'C68': "Error bound by the integral test for the next term of the expansion.",
'C69': "Trigonometric parametrisations of all patches; rotated centre refuted.",
'C70': "Combination of C55/C69 with the cut through the centre.",
'C71': "Algebra of density and length scale.",
'C72': "C42 and C48 combined, over histories.",
'C73': "All strings of all schemes checked by kernel reduction (finite data of the program, not a sample).",
'C74': "Evaluation of the fading functions against the documented half time.",
'C75': "Geometry of segments in real coordinates.",
'C76': "Projection onto the segment; order by parameter; tolerance refuted.",
'C77': "Case analysis; extremal coordinates from C54.",
'C78': "Exact condition for a normal return, for every heap.",
'C79': "Dictionary semantics of all parameters.",
'C80': "Soundness of everything yielded; outcome for singletons.",
'C81': "Case analysis over all combinations of arguments.",
'C82': "C81 and C72 combined.",
'C83': "Regions of polygons as convex hulls of triangles; trigonometric surfaces.",
'C84': "Hyperbolic functions; the ellipse of the light cone in static coordinates.",
'C85': "Corners are least/greatest elements of the times given by C44; derivatives in Mathlib; C51 for the end of a ray.",
'C86': "Loop invariant of the setter; grid points of C45.",
'C88': "Object with its volume memory; induction over the sequence of calls.",
'C89': "Inductive predicate Program over all modelled calls; the invariant (valid order, exact links) is shown to hold for every step; questions are shown to keep the order by structural lemmas on the state monad. `relate` with and without links is a step; `FromTextFile`, `create(relate=False)`, `EmbeddedCauset`, `sprinkle`, `intensify` are shown to be sequences of steps. Not part of programs: copy, and matrices that are not orders.",
'C90': "Inversion of a successful run of the plotting function; induction over the events; the fading functions of C58 in closed form.",
'C91': "Every loop over a set goes through an arbitrary enumeration `Iter` of the model; the answers are compared for two enumerations, using the exact characterisations of the other properties (uniqueness of the specified answer).",
'C92': "Iterables are modelled with the items they have left; the functions are run over lists and iterators and compared with their models over sets; induction over the loops.",
'C93': "A frame predicate between the states before and after, kept by the creation of an event whose past is new; induction over the loops of each constructor.",
'C94': "Case analysis of each call with the state at the point where it raises.",
'C95': "Model with references: set objects with identities, attributes referring to them, `for` over a set object with Python's size check (`Model/Objects.lean`). Invariant: every attribute has its own object; each call keeps the objects that are no attributes.",
'C96': "Refinement: the model with references against the model by values, call by call; `Objs.abs` forgets the references. For loops over aliased sets: the guards of `_addToPast` and `_addToFuture` and the order axioms show that the iterated set does not change.",
'C97': "Model with references; objects that are no attributes are kept by every call; `_prec` and `_succ` are assigned only by `__init__`, `copy` (new events) and `disjoin`.",
'C98': "Specification `SpacetimeObj.Le` of the causal relation per spacetime; composition of C43, C44 (causality functions) with C81 (constructor); antisymmetry by real analysis (sinh, ray times strictly monotone).",
'C99': "Case analysis of the constructors; witness for the refuted part by inequalities of the ray time inside the horizon.",
'C100': "Induction over the loop of `_Permutation_Coords` with numpy's index rule; composition with C46 for the events.",
'C101': "`RandomDraws` specifies the generator as random variables on a probability space (existence shown on an infinite product); polar coordinates and the change of variables of the radius give the law of a row, independence by grouping the draws by row; composed with C46, C48, C72 for the events.",
'C102': "C101 and the joint characteristic function of the counts of a Poisson number of independent points (computed from the generating function of the Poisson distribution).",
'C103': "`Model/PlotCalls.lean` models the object returned by `Plotter` with the dictionaries that its calls update; invariant: the dictionaries are those of the set-up up to the values of the keys that every artist sets anew (`PlotterObj.Over`). Erasing the keyword arguments gives the one-call model of C57, C75, C76, C90.",
'C104': "`Model/FloatCausality.lean` repeats the causality functions with a rounding after every operation; `Props/FloatRound.lean` proves that ties-to-even is a rounding to nearest and derives monotonicity, exact signs of differences and the error bound from `nearest`; the error of the sum from left to right by induction; witness of the refutation: a Pythagorean triple of 30-bit integers, scaled by 2^-23. `Props/FloatCurved.lean` and `Props/FloatBH.lean`: error propagation step by step (`near_rnd`, `near_mul`, `near_sq`, `near_sqrt`, `log_near`) with explicit constants `curvedErr`, `bhErr`; the accuracy of the library functions is a hypothesis.",
'C105': "`Lemmas/Isolation.lean`: the invariant `Isolated U h0 h` (events outside U unchanged, U self-contained) is kept by every elementary update of an event of U whose new references are in U; induction over the loops of all methods; questions by a Hoare-style predicate `Local` over the state monad; `Work` is the inductive relation of all call sequences.",
'C106': "`choices` is the dictionary-ordered product of lists; `remaining` maps the odometer state to the choices that are still to come; `layeredAdvance` removes the first of them; induction over the requests. The refutations are evaluations in the kernel.",
'C107': "Invariants of the placement loop (number of placed events, distinct numbers within a layer, contents of the lists); `betterOf` keeps the minimum; the loop over combinations by induction.",
'C108': "The distance matrix of an antichain within itself is constant off the diagonal (no common past or future inside an antichain); then a round of `__extend` from a list of two or more indices finds no insertion position and leaves the list as it is: induction over the rounds.",
'C109': "`CausalIso` is an order isomorphism between closed sets. Functions that read the state directly are transported clause by clause (`Lemmas/Iso.lean`); for queries with link memory, ranks, paths and components the specifications proved before are transported, and determine the answers.",
'C110': "`Heap.dual` exchanges past and future in a state; every function of the dual state is the mirrored function of the state (`Lemmas/Dual.lean`), and the theorems of C109 are applied to the first state and the dual of the second one.",
'C111': "`Model/Generators.lean` models a suspended generator as a tree of reads of the memory and yields, and runs it against an arbitrary environment acting at every yield. The invariant `Undisturbed` (interval as in the start state) is kept by every step; the recursion is followed by induction on the recursion depth, with the continuation of the outer loops as a parameter.",
'C112': "One `next` of the set iterator is a function of the remaining events, the size at the start and the present causet; induction over the remaining events against an arbitrary environment.",
'C113': "`CausallyConvex` is stated for the answers of the modelled `Causality()`. Bicone: triangle inequality. Counterexamples: explicit points in a plane; for de Sitter and black holes a point slightly outside the radius, by continuity of the ambient product and of the light ray time. Periodic: shift by `round`. All criteria are equivalences.",
'C114': "`AnswersWith` for the texts. The text is read back: integers, quoted strings and bracketed lists split uniquely from what follows them; equal texts give equal lists of entries, equal entries give equal links by labels, and links generate the order. Refutations by explicit reachable states.",
'C115': "Floating point formats with p bits in general (`FloatNum`), roundings to nearest by their specification (`IsRoundingTo`), IEEE ties-to-even shown to be one. Standard error analysis with the relative error 2^-24 and the absolute error 2^-150 (underflow). Witnesses on a grid of 2^-22, with all roundings decided by distance, no ties. Balls: error analysis of the norm, the quotient and the product, then the triangle inequality for the distance.",
'C116': "`Model/Ieee.lean` repeats all causality functions on values `nan`, `-inf`, `inf`, finite, with a rounding and then an overflow after every operation, and the exceptions of the `math` module and of `**`. Agreement by bounding every intermediate result by a power of 2 (roundings fix powers of 2, sums of n terms by n times a power); directions and nan by the form of the answers; refutations by explicit points (2^600, 2^900; sinh 357 squared).",
'C117': "`Model/Rows.lean` repeats the causality functions, `relate`, `create` and the constructor on lists of numbers, with IndexError beyond the end and NumPy's broadcasting of one-dimensional arrays. Three outcomes per spacetime by cases; the loops of `relate` by induction over the list of events with an invariant on what was written before the exception; without exceptions `relate` is the one of C42, which gives the order.",
'C118': "`Model/ReprSpacetime.lean`: the tokens of the texts, a recursive descent parser for calls with the kinds of arguments that occur, evaluation of arguments, binding of parameters and the constructors. Parsing a tuple of any length by induction; injectivity from the round trip; `str` by cutting the text at the first hyphen.",
'C119': "`Model/Float32Period.lean`: every number carries its type, which decides how a result is rounded. Error analysis as in C115, uniformly in the types; induction over the sum with changing types; two comparison lemmas. Witness on a grid of 2^-26.",
'C120': "`Model/Float32Curved.lean`: the causality functions with a rounding after every operation, in the type that NumPy gives to it. The error analysis of C104 with a general unit roundoff; the converted Schwarzschild radius compares like the exact one away from the horizon. Exact orders as in C115.",
'C121': "`Model/SprinkleDim.lean`: `_sprinkle_coords` with the lengths of the arrays, NumPy broadcasting and assignment. For the dimension of the causet it is the model of C48.",
'C122': "`C122_create` says that `create` only depends on the values of the causality function at the coordinates. The values are invariant since they are functions of differences, squared distances and, for boosts (and translations of time in de Sitter spacetime, which boost the embedding space), the interval.",
'C123': "Every function of the model is homogeneous in the lengths. Causal sets by `C122_create`.",
'C124': "Specification: the coordinate transformation (toEddingtonFinkelstein). Proved for the causality functions by cases over the sides of the horizon and then for create by C122_create.",
'C125': "Light-cone coordinates: t/alpha -+ artanh(r/alpha) for de Sitter spacetime, those of Kruskal and Szekeres for black holes. The causality functions are reduced to them by identities; a product order of two coordinates is numbered lexicographically to get the permutation; joined with C98 for EmbeddedCauset.",
'C126': "The sums over the additional coordinates vanish; the distance along a period is the plain distance up to half a period. Joined with create by C122_create.",
'C127': "The centre is added once to every coordinate, which is read off the loops; joined with sprinkle by C122_create. Specification: CoordinateShape.moved changes the centre only.",
'C128': "Induction over the sequence of create calls with a closed form of the state: one event per point in the order of creation and the relation given by the causality of the points (relate clears and recomputes all relations).",
'C129': "The closed form of the state (C128_state) before and after the further calls, and the exactness of the links after create (C42_history).",
'C130': "Entries of the matrices by C37; the square is a sum over the listed events; for links, induction over the exponent with the set of paths from an event, whose members are determined by their second event; Paths by C33.",
'C131': "Events and relation of both causets by C10; the correspondences are u to the position of u in P, u to u, and u to n + 1 - u.",
'C132': "From C31, C33 and C26: every path is a duplicate-free list of members of the interval; a path through a chain interval visits every member.",
'C133': "Chains are built from their first event by induction on the power; chains have no event twice, so that the powers vanish; the inverse is the finite geometric sum.",
'C134': "From C31 and C34: paths are joined and cut at b; every step of a chain that is no link can be refined to a longer path.",
'C87': "Case analysis over well-formed shapes.",
}

HEAD = open(os.path.join(HERE, 'design_head.md')).read()

def theorem_locations():
    loc = {}
    for d, _, fs in os.walk(os.path.join(ROOT, 'lean', 'Verif')):
        for f in fs:
            if f.endswith('.lean'):
                for m in re.finditer(r'^theorem (\S+)', open(os.path.join(d, f)).read(), re.M):
                    loc['Causets.' + m.group(1)] = os.path.relpath(os.path.join(d, f), os.path.join(ROOT, 'lean', 'Verif'))
    return loc

def main():
    props = [json.loads(l) for l in open(os.path.join(ROOT, 'properties.jsonl'))]
    claims = {c['property']: c for c in json.load(open(os.path.join(ROOT, 'MANIFEST.json')))['claims']}
    loc = theorem_locations()
    out = [HEAD, '\n## Plan and status per property\n\nFull statements: `properties.jsonl`. "refuted" in a theorem name: the negation of (a part of) the property, proved with a witness; such a property has the status partial.\n']
    for p in props:
        c = claims[p['id']]
        files = sorted({loc.get(t, '?') for t in c['theorems']})
        out.append(f"* **{p['id']}** {p['title']} - *{c['status']}* ({', '.join(files)}). {METHOD[p['id']]} Theorems: {', '.join('`'+t+'`' for t in c['theorems'])}." + (f" {c['note']}" if c.get('note') else ''))
    out.append('\n## Coverage: every function of /repo and the model file that cites it\n\n(`-`: not modelled; the test files of /repo are left out.)\n')
    cov = subprocess.run([sys.executable, os.path.join(HERE, 'coverage.py')], capture_output=True, text=True).stdout
    byfile = {}
    for l in cov.splitlines():
        where, name, hit = l.split('\t')
        f, r = where.split(':')
        if not f.startswith('test_'):
            byfile.setdefault(f, []).append(f"{name} ({r}): {hit}")
    for f, l in byfile.items():
        out.append(f"* `{f}`: " + '; '.join(l) + '.')
    open(os.path.join(ROOT, 'DESIGN.md'), 'w').write('\n'.join(out) + '\n')

main()
