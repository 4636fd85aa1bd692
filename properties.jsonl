{"id": "C01", "title": "Events always form a strict partial order with mirrored past and future", "statement": "Start from no events and issue any sequence of CausetEvent constructor calls, link/unlink calls, and queries, where whenever both `past` and `future` are passed to a constructor every given past event already precedes every given future event. Then at every moment `<` on all events is irreflexive and transitive, and `a in b.Past` holds exactly when `b in a.Future`. (Without the proviso transitivity is lost: the constructor never relates `past` to `future`.)", "quantifier": "every finite history of constructor/link/unlink/query calls, every set-iteration order, every reachable state", "why_tests_cant": "needs an invariant over unboundedly long histories and every set iteration order; a test fixes one history", "anchors": ["causetevent.py:CausetEvent.__init__", "causetevent.py:_addToPast", "causetevent.py:_addToFuture", "causetevent.py:__lt__"]}
{"id": "C02", "title": "The constructor adds exactly the relations it is asked for", "statement": "After `e = CausetEvent(past=P, future=F)`, the relation `<` is the old relation plus exactly: x < e for every x equal to or preceding some member of P, and e < y for every y equal to or succeeding some member of F. No other pair changes, and e is distinct from all earlier events.", "quantifier": "every prior state, every P and F, every iteration order of the sets involved", "why_tests_cant": "quantifies over all prior states and over all hash orders of the internal sets", "anchors": ["causetevent.py:CausetEvent.__init__"]}
{"id": "C03", "title": "Link queries are independent of when links were cached", "statement": "In every reachable state (as in C01), `LinkPast`, `LinkFuture`, `LinkCone`, `isPastLink`, `isFutureLink`, `isLinkedTo`, `LinkPastCard`, `LinkFutureCard` return exactly the covering relation of the current order (a link is a < b with nothing strictly between), regardless of which events were linked, when, or whether they were unlinked in between; and the queries change nothing else that is observable.", "quantifier": "every history of constructors, link(), unlink() and link queries, every iteration order", "why_tests_cant": "the cached sets are updated incrementally in many different states; tests sample a few interleavings of caching and construction", "anchors": ["causetevent.py:link", "causetevent.py:_addToPast", "causetevent.py:_addToFuture", "causetevent.py:isPastLink", "causetevent.py:LinkPast"]}
{"id": "C04", "title": "Any two events are in exactly one causal relationship", "statement": "For any two events of a valid state exactly one of the following holds: a is b, a < b, b < a, a.isSpacelikeTo(b). `<=`, `>`, `>=`, isCausalTo agree with it and isSpacelikeTo is symmetric.", "quantifier": "every valid state and every pair of events", "why_tests_cant": "universal over states and pairs", "anchors": ["causetevent.py:__le__", "causetevent.py:isCausalTo", "causetevent.py:isSpacelikeTo"]}
{"id": "C05", "title": "Cone and spacelike cardinalities count the corresponding sets", "statement": "PastCard, FutureCard, ConeCard, SpacelikeCard(S) equal the sizes of Past, Future, Cone, Spacelike(S); Spacelike(S) is exactly the events of S that are spacelike to the event.", "quantifier": "every valid state, every event, every set S", "why_tests_cant": "the arithmetic shortcuts are only right because of order invariants of every reachable state", "anchors": ["causetevent.py:ConeCard", "causetevent.py:SpacelikeCard", "causetevent.py:Spacelike", "causetevent.py:Cone"]}
{"id": "C06", "title": "LinkConeCard is the number of linked events", "statement": "`e.LinkConeCard == len(e.LinkCone)`. (REFUTED by the code, which uses the bitwise `&` of two counts.)", "quantifier": "every valid state and event", "why_tests_cant": "one wrong operator agrees with the right one on many small counts", "anchors": ["causetevent.py:LinkConeCard"]}
{"id": "C07", "title": "disjoin removes an event from the causal order and nothing else", "statement": "After `e.disjoin()` on a linked event, e is unrelated to every event and every other pair is related exactly as before, for every iteration order of e's cone; the order stays valid. On an event without link memory it raises AttributeError and changes nothing.", "quantifier": "every valid state, every event, every iteration order of the cone", "why_tests_cant": "depends on hash order and on arbitrary prior states", "anchors": ["causetevent.py:disjoin", "causetevent.py:_discard"]}
{"id": "C08", "title": "Link queries stay correct after disjoin", "statement": "After `e.disjoin()` the link queries of all remaining events agree with the new order. (REFUTED: removing the middle of a linked 3-chain loses the new link on one side for every iteration order, so isFutureLink and isPastLink disagree.)", "quantifier": "every valid linked state, every iteration order", "why_tests_cant": "failure side depends on set iteration order, so a passing test proves nothing", "anchors": ["causetevent.py:_discard", "causetevent.py:disjoin"]}
{"id": "C09", "title": "Causet(S) is the least causally closed superset of S", "statement": "The constructor terminates, and the resulting causet contains S, contains the past and future of each of its events, and is contained in every other such set.", "quantifier": "every valid state, every set S, every iteration order", "why_tests_cant": "termination and minimality are universal statements", "anchors": ["causet.py:Causet.__init__", "causet.py:ConeOf"]}
{"id": "C10", "title": "FromPermutation builds the 2D order of the permutation", "statement": "For every permutation P of 1..n, FromPermutation(P) returns a causet of exactly n new events labelled 1..n, and the event labelled u precedes the one labelled w exactly if u < w and u stands before w in P. If P (of length n) is not a permutation of 1..n a ValueError is raised.", "quantifier": "every integer list P of every length, every iteration order", "why_tests_cant": "n is unbounded", "anchors": ["causet.py:FromPermutation"]}
{"id": "C11", "title": "NewChain and NewAntichain build chains and antichains of the requested size", "statement": "NewChain(n) has max(n,0) events, pairwise related by label; NewAntichain(n) has max(n,0) events, pairwise spacelike.", "quantifier": "every integer n (also negative), every iteration order", "why_tests_cant": "n is unbounded", "anchors": ["causet.py:NewChain", "causet.py:NewAntichain"]}
{"id": "C12", "title": "NewFence builds the fence of the requested length and height", "statement": "For length >= 2 and height >= 0, NewFence returns (height+1)*length events; event (h,l) precedes event (h',l') exactly if h < h' and l is one of the h'-h+1 positions ending at l' (cyclically if closed, cut off at position 0 if open). length 1 gives a chain, length < 1 or height < 0 the empty causet.", "quantifier": "every integer length and height, closed or open", "why_tests_cant": "unbounded family", "anchors": ["causet.py:NewFence", "causet.py:NewCrown"]}
{"id": "C13", "title": "NewSimplex builds the face lattice of the d-simplex", "statement": "NewSimplex(d) has one event per non-empty set of the d+1 vertices (omitting the full set if includeCentralFace is False, d>0), ordered by strict inclusion; so 2^(d+1)-1 (or 2^(d+1)-2) events.", "quantifier": "every d, both flag values", "why_tests_cant": "unbounded family; relies on label strings being unique", "anchors": ["causet.py:NewSimplex"]}
{"id": "C14", "title": "FromPastMatrix realises a causal matrix and PastMatrix reads it back", "statement": "If C is the square matrix of a strict partial order, FromPastMatrix(C) yields events 1..n with `i > j` exactly when C[i,j], Past and Future mirrored; and PastMatrix with the events listed in label order returns C. FromFutureMatrix does the same with C transposed.", "quantifier": "every n and every strict-order matrix", "why_tests_cant": "all matrices of all sizes", "anchors": ["causet.py:FromPastMatrix", "causet.py:PastMatrix", "causet.py:FromFutureMatrix"]}
{"id": "C15", "title": "FromPastMatrix raises ValueError on causal loops", "statement": "If C contains a causal loop of any length, FromPastMatrix(C) raises ValueError. (REFUTED for loops of length >= 3; it holds for loops of length 1 and 2, and for matrices with more rows than columns.)", "quantifier": "every square matrix", "why_tests_cant": "loops may have any length", "anchors": ["causet.py:FromPastMatrix"]}
{"id": "C16", "title": "FromPastMatrix completes link matrices", "statement": "Given a matrix that contains only links, or has fewer rows than columns, the result is still a valid causet whose order is the transitive closure. (REFUTED: futures are completed by one step only, and pasts only for causally sorted matrices; rows that are missing leave futures unset.)", "quantifier": "every acyclic matrix", "why_tests_cant": "defect needs chains of length >= 4 or non-square input", "anchors": ["causet.py:FromPastMatrix"]}
{"id": "C17", "title": "merge places one causet after the other", "statement": "For two disjoint causally closed event sets, merge(P,F) relates every p in P before every f in F, keeps all other relations, keeps the order valid, and returns the union; with disjoint=True no relation changes.", "quantifier": "every valid state, all closed disjoint P, F, every iteration order", "why_tests_cant": "all states and hash orders", "anchors": ["causet.py:merge"]}
{"id": "C18", "title": "Link queries stay correct after merge", "statement": "After merge, link queries agree with the merged order. (REFUTED when events were linked before: stale links survive, depending on iteration order. Holds if no event had link memory.)", "quantifier": "every valid state, every iteration order", "why_tests_cant": "depends on hash order", "anchors": ["causet.py:merge", "causetevent.py:_addToFuture"]}
{"id": "C19", "title": "add and discard are set union and difference", "statement": "C.add(S) and C.discard(S) change the event set to the union/difference and nothing else when unlink is False; Card and len count the events accordingly; with unlink=True they raise AttributeError unless every remaining event has link memory, and otherwise exactly drop that memory.", "quantifier": "every state, all sets", "why_tests_cant": "error point lies anywhere in an arbitrary iteration order", "anchors": ["causet.py:add", "causet.py:discard"]}
{"id": "C20", "title": "Set operators on causets follow set algebra", "statement": "C - D, C | D, C & D, C ^ D, the named methods, and the reflected operators return the set-theoretic results. (REFUTED for the reflected minus: S - C returns C minus S.)", "quantifier": "all event sets", "why_tests_cant": "universal", "anchors": ["causet.py:__sub__", "causet.py:__rsub__", "causet.py:__xor__"]}
{"id": "C21", "title": "isChain and isAntichain decide chains and antichains", "statement": "isChain(S) is True exactly if any two distinct events of S are causally related, isAntichain(S) exactly if no two are; without argument they decide this for the whole (causally closed) causet.", "quantifier": "every valid state and set", "why_tests_cant": "universal over states", "anchors": ["causet.py:isChain", "causet.py:isAntichain"]}
{"id": "C22", "title": "isPath decides causal paths", "statement": "isPath(S) is True exactly if S is non-empty and its events form a chain of links. (REFUTED: it accepts closed fences and V shapes; every linked chain is accepted.)", "quantifier": "every valid state and set", "why_tests_cant": "a degree count passes all usual tests", "anchors": ["causet.py:isPath"]}
{"id": "C23", "title": "Past and future infinities are the minimal and maximal events", "statement": "PastInf, FutureInf, PastInfOf, FutureInfOf return exactly the minimal/maximal events, they are antichains, non-empty for non-empty sets, every event is above/below one of them, and the *Card versions count them.", "quantifier": "every valid state and set", "why_tests_cant": "universal", "anchors": ["causet.py:PastInf", "causet.py:FutureInf", "causet.py:PastInfOf", "causet.py:FutureInfCardOf"]}
{"id": "C24", "title": "PastOf, FutureOf, ConeOf and SpacelikeTo compute unions of cones", "statement": "With intersect=False they return the events before/after/related to some event of S, plus S if includePresent; SpacelikeTo(S) is the events of the causet spacelike to every event of S; independent of iteration order.", "quantifier": "every valid state, every S, every iteration order", "why_tests_cant": "universal", "anchors": ["causet.py:PastOf", "causet.py:FutureOf", "causet.py:ConeOf", "causet.py:SpacelikeTo"]}
{"id": "C25", "title": "intersect=True returns common pasts, futures and cones", "statement": "With intersect=True, PastOf/FutureOf/ConeOf return the events common to all pasts/futures/cones of S. (REFUTED: the accumulator starts empty, so the result is always empty.)", "quantifier": "every valid state and S", "why_tests_cant": "universal", "anchors": ["causet.py:PastOf", "causet.py:FutureOf", "causet.py:ConeOf"]}
{"id": "C26", "title": "Intervals and their cardinalities", "statement": "Interval(a,b) is {x : a <= x <= b}; without boundary {x : a < x < b} for a != b; empty unless a <= b; IntervalCard is its size for both flag values.", "quantifier": "every valid state and pair", "why_tests_cant": "universal", "anchors": ["causet.py:Interval", "causet.py:IntervalCard"]}
{"id": "C27", "title": "Perimetral and internal events split the open interval", "statement": "For a < b, PerimetralEvents are the x with links a-x-b, InternalEvents the remaining events strictly between, the counts are their sizes and add up to IntervalCard - 2.", "quantifier": "every reachable state and pair", "why_tests_cant": "universal", "anchors": ["causet.py:PerimetralEvents", "causet.py:InternalEvents", "causet.py:InternalEventCount"]}
{"id": "C28", "title": "CentralAntichain returns a maximal antichain", "statement": "For every iteration order the returned set is an antichain and every event of the causet is related or equal to one of its members; it contains an event of minimal |past - future| imbalance.", "quantifier": "every valid state, every reference event, every iteration order", "why_tests_cant": "result depends on hash order", "anchors": ["causet.py:CentralAntichain"]}
{"id": "C29", "title": "Layer numbers", "statement": "LayerNumbers(L) gives 0 exactly to events without past in L and otherwise (largest interval to a past event in L) - 1 >= 1; reverse is the mirrored negative; layer numbers strictly increase along the order; Layers(S,first,last) of an antichain S returns exactly the related events with layer number in range, with layer 0 = S.", "quantifier": "every valid state, every event list", "why_tests_cant": "universal", "anchors": ["causet.py:LayerNumbers", "causet.py:Layers"]}
{"id": "C30", "title": "layered partitions the events into antichains by height", "statement": "layered() terminates and returns non-empty antichains; the k-th contains exactly the events whose longest chain from a minimal event has k+1 events, so they are disjoint and cover the whole causet; reverse likewise from above. (For an eventSet that is not order-convex this is REFUTED: events are dropped.)", "quantifier": "every valid state, every order-convex event set", "why_tests_cant": "termination and coverage for all posets", "anchors": ["causet.py:layered", "causet.py:Layers"]}
{"id": "C31", "title": "Rank is the shortest link distance", "statement": "a.Rank(b) is infinite unless a <= b, and otherwise the least number of links on a path from a to b; independent of iteration order and of link caching; the recursion terminates.", "quantifier": "every reachable state, pair, iteration order", "why_tests_cant": "exponential search over all posets", "anchors": ["causetevent.py:Rank"]}
{"id": "C32", "title": "Ranks and RankNumbers", "statement": "RankNumbers and Ranks use for each event the largest Rank to/from the given events: 0 exactly for extremal events, never raise, and never exceed the layer number.", "quantifier": "every reachable state and event list", "why_tests_cant": "universal", "anchors": ["causet.py:Ranks", "causet.py:RankNumbers"]}
{"id": "C33", "title": "Paths enumerates all paths in a length range exactly once", "statement": "Paths(a,b) yields every link path from a to b exactly once; with an int or list length exactly those with length in range (-1 as upper bound means unbounded); nothing if not a <= b.", "quantifier": "every reachable state, pair, length bound, iteration order", "why_tests_cant": "completeness of a recursive search over all posets", "anchors": ["causet.py:Paths"]}
{"id": "C34", "title": "Paths with 'min' and 'max' yield exactly the extremal paths", "statement": "length='min' yields exactly the shortest link paths, 'max'/'timegeo' exactly the longest ones, each once.", "quantifier": "every reachable state, pair, iteration order", "why_tests_cant": "pruning via shared mutable bounds during the search depends on iteration order", "anchors": ["causet.py:Paths"]}
{"id": "C35", "title": "disjoint returns the connected components", "statement": "disjoint(S) terminates and returns non-empty, pairwise disjoint sets with union S, no causal relation between different sets, each connected through relations inside S; isDisjoint says whether there is more than one.", "quantifier": "every valid state, S, iteration order", "why_tests_cant": "termination and all hash orders", "anchors": ["causet.py:disjoint", "causet.py:isDisjoint"]}
{"id": "C36", "title": "sortedByCausality returns a linear extension", "statement": "sortedByCausality(S) is a permutation of S in which no event stands after one of its future events; reverse gives the opposite; whatever order sortedByLabels produced. sortedByLabels is a permutation sorted by label.", "quantifier": "every valid state, S, labelling", "why_tests_cant": "correctness of a swap sort for partial orders", "anchors": ["causet.py:sortedByCausality", "causet.py:sortedByLabels"]}
{"id": "C37", "title": "Causal and link matrices", "statement": "PastMatrix()[i,j] is True exactly if event j precedes event i, strictly lower triangular in the default order; FutureMatrix its transpose; LinkPastMatrix exactly the links and entrywise below PastMatrix; PastMatrix is the transitive closure of LinkPastMatrix.", "quantifier": "every reachable state", "why_tests_cant": "universal", "anchors": ["causet.py:PastMatrix", "causet.py:FutureMatrix", "causet.py:LinkPastMatrix", "causet.py:LinkFutureMatrix"]}
{"id": "C38", "title": "Causet.link caches exact links for causally closed causets", "statement": "C.link() never fails on a causally closed causet and afterwards every event's link memory is exact; LinkCount() is the number of links. (On a causet that is not causally closed, e.g. after discard, it raises or leaves incomplete link memory.)", "quantifier": "every valid state, every closed event set, every iteration order", "why_tests_cant": "closedness is a global property", "anchors": ["causet.py:link", "causet.py:LinkCount", "causet.py:unlink"]}
{"id": "C39", "title": "SmallestIntervalCard", "statement": "Is symmetric in a and b; equals IntervalCard for related events; for spacelike events the least interval size over common past and future events (or least past/future when only one side exists, 0 when none).", "quantifier": "every valid state and pair", "why_tests_cant": "universal", "anchors": ["causet.py:SmallestIntervalCard"]}
{"id": "C40", "title": "DistanceMatrix is a symmetric matrix with zero diagonal", "statement": "DistanceMatrix terminates on every antichain list and returns a symmetric matrix with zero diagonal and entries >= -1; an unknown counting name raises ValueError.", "quantifier": "every valid state, antichain list, iteration order", "why_tests_cant": "termination and invariants over a triple loop", "anchors": ["causet.py:DistanceMatrix"]}
{"id": "C41", "title": "Antipaths yields antichain paths between its endpoints", "statement": "Every list yielded by Antipaths(a,b,along) starts with a, ends with b and consists of members of `along`; [a] for a is b; nothing if a,b are related or not in `along`.", "quantifier": "every distance matrix and antichain", "why_tests_cant": "universal", "anchors": ["causet.py:Antipaths"]}
{"id": "C42", "title": "relate gives exactly the order of the spacetime", "statement": "After relate() (or create), two events of the embedded causet satisfy a < b exactly as the causality function says for the enumeration of the events; Past/Future are mirrored; at most one of a < b, b < a holds; if the causality function is transitive the order is valid and the link memory exact.", "quantifier": "every causality function, coordinates, iteration order", "why_tests_cant": "universal over spacetimes", "anchors": ["embeddedcauset.py:relate", "embeddedcauset.py:create"]}
{"id": "C43", "title": "Flat causality is a partial order", "statement": "For FlatSpacetime of any dimension, with or without periods, the causality function never reports both directions, reports the reverse for swapped arguments at different times, and with tolerance 0 is transitive. With the coded tolerance 1e-12 transitivity is REFUTED; it holds for points in general position.", "quantifier": "every dimension, all coordinates (exact arithmetic)", "why_tests_cant": "continuum of inputs", "anchors": ["spacetimes.py:FlatSpacetime.Causality", "spacetimes.py:Spacetime.Causality"]}
{"id": "C44", "title": "Curved causality", "statement": "The de Sitter, anti-de Sitter and black hole causality functions never report both directions; de Sitter causality (tolerance 0) is transitive and is the order of the hyperboloid; off the horizon black hole causality (Eddington-Finkelstein, Schwarzschild) is transitive and is that of the light rays. For anti-de Sitter, 'precedes implies earlier time coordinate' is REFUTED.", "quantifier": "all parameters and coordinates (exact arithmetic)", "why_tests_cant": "continuum of inputs", "anchors": ["spacetimes.py:deSitterSpacetime.Causality", "spacetimes.py:AntideSitterSpacetime.Causality", "spacetimes.py:BlackHoleSpacetime.Causality"]}
{"id": "C45", "title": "Embedded and abstract FromPermutation agree", "statement": "EmbeddedCauset.FromPermutation(P) places the events inside the diamond of the given radius and its causal order is that of Causet.FromPermutation(P), provided the cell size 2*radius/n exceeds the causality tolerance.", "quantifier": "every permutation, every radius", "why_tests_cant": "unbounded n, continuum radius", "anchors": ["embeddedcauset.py:_Permutation_Coords", "embeddedcauset.py:FromPermutation"]}
{"id": "C46", "title": "create labels new events consecutively", "statement": "create(coords) adds exactly len(coords) new events, labelled Card+1, Card+2, ...; keeps all existing events; default labels stay pairwise distinct over any sequence of create calls. (With discard in between uniqueness is lost.)", "quantifier": "every history of create calls", "why_tests_cant": "history property", "anchors": ["embeddedcauset.py:create"]}
{"id": "C47", "title": "Intensity equals Card over every history without Poisson sampling", "statement": "For every sequence of sprinkle, create, add, discard on SprinkledCauset(card=n), Intensity equals Card (exact arithmetic); intensify adds its parameter exactly once; discard on an empty causet raises ZeroDivisionError.", "quantifier": "every history", "why_tests_cant": "history property", "anchors": ["sprinkledcauset.py:sprinkle", "sprinkledcauset.py:create", "sprinkledcauset.py:discard", "sprinkledcauset.py:intensify"]}
{"id": "C48", "title": "Sprinkled coordinates lie in the shape", "statement": "Every coordinate vector returned by the sprinkling lies in the requested shape, for every random stream. (REFUTED for 'bicone'/'diamond' - the default shape of flat spacetime: the name test never matches, so uninitialised memory is returned. Proved for cube, cuboid, ball, cylinder.)", "quantifier": "every random stream, shape parameters, dimension", "why_tests_cant": "random stream is universally quantified", "anchors": ["sprinkledcauset.py:_sprinkle_coords", "shapes.py:CoordinateShape.__init__"]}
{"id": "C49", "title": "Harmonic numbers are exact below the approximation threshold and agree", "statement": "HarmonicNumberFraction(n), HarmonicNumberFractions(n)[k] are the exact harmonic numbers; HarmonicNumber(n) and HarmonicNumbers(m)[n] agree for all n <= m (exact arithmetic). (REFUTED for n >= 55109 at or above the threshold, where the int64 fourth power in HarmonicNumbers overflows.)", "quantifier": "every n, m, threshold", "why_tests_cant": "unbounded n", "anchors": ["calculations.py:HarmonicNumberFraction", "calculations.py:HarmonicNumberFractions", "calculations.py:HarmonicNumber", "calculations.py:HarmonicNumbers"]}
{"id": "C50", "title": "HarmonicNumbers is finite for every n", "statement": "All entries of HarmonicNumbers(n) are finite. (REFUTED: the int64 fourth power overflows to 0 at n = 65536, giving infinity.) Proved for n <= 55108.", "quantifier": "every n", "why_tests_cant": "fails only at huge n", "anchors": ["calculations.py:HarmonicNumbers"]}
{"id": "C51", "title": "Newton's method stays in its interval", "statement": "NewtonsMethod returns either the default or a value in [xmin, xmax] (for precission <= xmax - xmin) that differs from the previous iterate by less than the precision; it makes at most maxIterations steps. The documented interval [xmin+precission, xmax-precission] is REFUTED.", "quantifier": "all functions and parameters (exact arithmetic)", "why_tests_cant": "quantifies over functions", "anchors": ["calculations.py:NewtonsMethod"]}
{"id": "C52", "title": "Shapes are constructed exactly for valid parameters", "statement": "CoordinateShape(dim, name, ...) succeeds exactly if dim >= 1, the name is supported and the parameters are in the documented ranges, otherwise ValueError; 'diamond' becomes 'bicone'; all stored lengths are positive.", "quantifier": "all parameters", "why_tests_cant": "continuum", "anchors": ["shapes.py:CoordinateShape.__init__"]}
{"id": "C53", "title": "Volume is the Lebesgue volume of the shape", "statement": "Volume equals the d-dimensional Lebesgue measure of the documented region for ball (also hollow), cube, cuboid, cylinder (also hollow) and bicone; it is positive.", "quantifier": "every dimension and parameters (real arithmetic)", "why_tests_cant": "continuum and all dimensions", "anchors": ["shapes.py:CoordinateShape.Volume"]}
{"id": "C54", "title": "Limits bound the shape", "statement": "Every point of the shape has its i-th coordinate within Limits(i), both ends are attained or approached, MaxEdgeHalf bounds half of every edge; an out-of-range dimension raises ValueError.", "quantifier": "all shapes and points", "why_tests_cant": "continuum", "anchors": ["shapes.py:Limits", "shapes.py:MaxEdgeHalf"]}
{"id": "C55", "title": "Edge polygons are closed, have the documented number of rows and lie on the edge", "statement": "RectangleEdge, CircleEdge, EllipseEdge, BiconeEdge, CylinderCutEdge return closed polygons with the documented number of rows whose points satisfy the boundary equation.", "quantifier": "all centers, radii, sampling sizes", "why_tests_cant": "continuum and all sampling sizes", "anchors": ["shapes.py:RectangleEdge", "shapes.py:CircleEdge", "shapes.py:EllipseEdge", "shapes.py:BiconeEdge", "shapes.py:CylinderCutEdge"]}
{"id": "C56", "title": "Colour conversion", "statement": "convertColorsInDict/List replace exactly the 'cs:' values by the scheme's colours, leave all others, and are idempotent; getColor agrees; an unknown scheme raises ValueError and leaves the global scheme unchanged; all default plot colours exist in every scheme.", "quantifier": "every dictionary, list, history of setGlobalColorScheme calls", "why_tests_cant": "universal", "anchors": ["colorschemes.py:convertColorsInDict", "colorschemes.py:setGlobalColorScheme", "colorschemes.py:getColor", "causetplotting.py:default_colors"]}
{"id": "C57", "title": "Plotter reserves exactly as many link artists as it draws", "statement": "For a list of distinct events the number of linked pairs visited by the plot loop equals LinkCountOf, so the artist index is always in range. (A repeated event in the list or link memory broken by disjoin violates it.)", "quantifier": "every reachable state and event list", "why_tests_cant": "universal", "anchors": ["causetplotting.py:Plotter", "causetevent.py:LinkCountOf"]}
{"id": "C58", "title": "Fading functions", "statement": "dynamic_parameter: value alpha_max at distance 0; linear reaches 0 at timedepth and is within [0, alpha_max] before; all variants vanish on the wrong side of the time slice; exponential and intensity are positive and antitone on the right side.", "quantifier": "all parameters and distances (real arithmetic)", "why_tests_cant": "continuum", "anchors": ["causetplotting.py:dynamic_parameter"]}
{"id": "C59", "title": "permuted returns all events with a permutation of the same length", "statement": "permuted(C) returns a list of all events and a permutation of 1..n. (REFUTED: for every non-empty set the second list has fewer entries than there are events, or TypeError is raised. Proved: exactly the sets that can be taken apart by removing least and greatest events and splitting unconnected parts return, and then the first list is a linear order of the events compatible with causality.)", "quantifier": "every causet", "why_tests_cant": "unbounded", "anchors": ["causetpermutations.py:permuted", "causetpermutations.py:__perm_jointsubset"]}
{"id": "C60", "title": "findClosedFences terminates", "statement": "findClosedFences returns for every start. (REFUTED: no open start ever returns a fence; the loop never ends or raises IndexError. Proved: the outcome for every start.)", "quantifier": "every start", "why_tests_cant": "non-termination cannot be observed by a test", "anchors": ["causetpermutations.py:findClosedFences"]}
{"id": "C61", "title": "Embedding flags", "statement": "A new event without coordinates is not embedded and embed() succeeds on it. (REFUTED: every new event counts as embedded, with dimension 0, so embed without reembed always raises.) embed/disembed/Coordinates/CoordinatesDim/Position otherwise behave like an optional field; Position accepts exactly two values.", "quantifier": "every history of embed/disembed calls", "why_tests_cant": "history property", "anchors": ["causetevent.py:embed", "causetevent.py:isEmbedded", "causetevent.py:disembed", "causetevent.py:Position"]}
{"id": "C62", "title": "CSV round trip", "statement": "saveAsCSV followed by FromTextFile returns a causet with the same causal matrix, for causets of at least 2 events. (For 1 event REFUTED: the file reads back as a 0-dimensional array.)", "quantifier": "every reachable causet", "why_tests_cant": "all sizes", "anchors": ["causet.py:saveAsCSV", "causet.py:FromTextFile"]}
{"id": "C63", "title": "find, findAll and findAny search by label", "statement": "find(l) returns an event of the causet with label l or raises ValueError exactly if there is none; findAll returns exactly the events whose label is among the arguments; findAny yields each once.", "quantifier": "every state and label list, every iteration order", "why_tests_cant": "universal", "anchors": ["causet.py:find", "causet.py:findAll", "causet.py:findAny"]}
{"id": "C64", "title": "copy does not affect the original", "statement": "e.copy() returns a new event with the same label, past, future and link memory; all other events are unchanged (they do not know the copy).", "quantifier": "every state", "why_tests_cant": "universal", "anchors": ["causetevent.py:copy"]}
{"id": "C65", "title": "relabel numbers events by coordinate", "statement": "relabel(dim) gives the events the labels 1..n bijectively such that labels ascend (descend) with the coordinate in that dimension, whatever argsort does with ties.", "quantifier": "every coordinate assignment and sort order of ties", "why_tests_cant": "universal", "anchors": ["embeddedcauset.py:relabel"]}
{"id": "C66", "title": "Antipaths ends normally for every antichain and computed distance matrix", "statement": "For every antichain and every matrix returned by DistanceMatrix for it, Antipaths between two of its events ends without an exception. (REFUTED for 'intersection' matrices, where it recurses without end, and for antichains without neighbours, where it raises ValueError. Proved for 'ziczac' matrices of antichains connected through the adjacent layers.)", "quantifier": "every antichain, matrix and recursion limit", "why_tests_cant": "universal", "anchors": ["causet.py:Antipaths", "causet.py:DistanceMatrix"]}
{"id": "C67", "title": "Flat spacetimes are constructed exactly for valid parameters and can be printed", "statement": "FlatSpacetime(dim, period) succeeds exactly if dim >= 1 and period is a float or a tuple of dim - 1 floats, otherwise ValueError; it is periodic exactly if some period is positive; repr of it returns. (REFUTED for repr: it raises KeyError for every non-periodic flat spacetime.)", "quantifier": "all parameters", "why_tests_cant": "universal", "anchors": ["spacetimes.py:FlatSpacetime.__init__", "spacetimes.py:FlatSpacetime.__repr__"]}
{"id": "C68", "title": "HarmonicNumber approximation error", "statement": "Above the threshold, HarmonicNumber(n) is never below the exact harmonic number H_n and exceeds it by at most 1/(252 n^6) (in exact arithmetic).", "quantifier": "every n >= 1", "why_tests_cant": "universal over all n, against an infinite precision value", "anchors": ["calculations.py:HarmonicNumber"]}
{"id": "C69", "title": "Surfaces lie on the boundary of the shape about the given centre", "statement": "Every point of BallSurface, CuboidSurface, CubeSurface lies on the boundary of the shape with the given centre; so does every point of CylinderSurface and OpenConeSurface for every axis. (REFUTED for zaxis 0 and 1: the surface is rotated after adding the centre, so it is centred at the rotated centre; proved for that centre and hence for zaxis 2.)", "quantifier": "all centres, radii, axes and sampling sizes", "why_tests_cant": "universal over reals", "anchors": ["shapes.py:BallSurface", "shapes.py:CuboidSurface", "shapes.py:CubeSurface", "shapes.py:CylinderSurface", "shapes.py:OpenConeSurface"]}
{"id": "C70", "title": "plot draws the boundary of the cut through the centre", "statement": "The patch (2 dimensions) or the surfaces (3 dimensions) that CoordinateShape.plot(dims) passes to matplotlib lie on the boundary of the shape, in the cut through its centre. (REFUTED if the time dimension is the first (or, in 3 dimensions, second) entry of dims: cylinders are then drawn about the permuted centre and 3-dimensional bicones are misplaced even about the origin. Proved for all other shapes and dimensions.)", "quantifier": "all shapes, centres, parameters and pairs or triples of dimensions", "why_tests_cant": "universal over reals", "anchors": ["shapes.py:CoordinateShape.plot"]}
{"id": "C71", "title": "Density and length scale", "statement": "For a SprinkledCauset of positive intensity Density * Shape.Volume = Intensity and LengthScale ** Dim * Density = 1; for an EmbeddedCauset Density * Volume = Card, and LengthScale is 0 without events and the inverse Dim-th root of the density otherwise. (The last part is REFUTED: EmbeddedCauset.LengthScale is the Dim-th root of the density itself.)", "quantifier": "all shapes, dimensions and causets", "why_tests_cant": "universal over reals", "anchors": ["sprinkledcauset.py:Density", "sprinkledcauset.py:LengthScale", "embeddedcauset.py:Density", "embeddedcauset.py:LengthScale"]}
{"id": "C72", "title": "Sprinkling yields a consistent causet in the shape, ordered by causality", "statement": "In a spacetime whose causality is a causal order on the shape (cube, cuboid, ball or cylinder), SprinkledCauset(card=n), sprinkle(n) and intensify succeed in every consistent program state; the causet gets exactly the requested number of new events, all with coordinates in the shape, is closed, linked and consistent, ordered by the causality of the coordinates; older events keep coordinates and labels. After every sequence of sprinkle, intensify and create calls, raising or not, it is still consistent.", "quantifier": "every random stream, shape, spacetime, history", "why_tests_cant": "history and random stream are universally quantified", "anchors": ["sprinkledcauset.py:__init__", "sprinkledcauset.py:sprinkle", "sprinkledcauset.py:intensify", "embeddedcauset.py:create", "embeddedcauset.py:relate"]}
{"id": "C73", "title": "Scheme colours are valid colours", "statement": "Every colour in hexadecimal notation in the supported colour schemes is '#' followed by six hexadecimal digits, so getColor returns a colour that matplotlib accepts. (REFUTED: 'lime' of 'ImperialLondon' is '#BBCEOO' with two letters O. Proved for all others.)", "quantifier": "every scheme and colour", "why_tests_cant": "the data are finite, but a test would have to plot every colour of every scheme", "anchors": ["colorschemes.py:ColorSchemes", "colorschemes.py:getColor"]}
{"id": "C74", "title": "Documented fading of dynamic plots", "statement": "As documented, 'exponential' fading reaches half of the maximal value at the distance timedepth, and 'intensity' decreases with the distance. (REFUTED: the exponential value at timedepth is the maximum over e, half of it is reached at timedepth * log 2; with a negative timedepth 'intensity' does not fade at all.)", "quantifier": "all time depths, maxima and distances", "why_tests_cant": "continuum", "anchors": ["causetplotting.py:dynamic_parameter", "causetplotting.py:plot_parameters"]}
{"id": "C75", "title": "Links in dynamic plots", "statement": "In dynamic mode an event is visible exactly if it is on the side of the time slice given by the sign of timedepth (and, with linear fading, closer than timedepth); a link is drawn exactly if both its events are visible, or one is visible and the other on the wrong side of the slice (up to an event on the slice); it then runs from the visible event that is farther from the slice to the other event, or ends on the slice, covering exactly the part of the segment on the right side.", "quantifier": "all event coordinates, times, depths and the three fading functions", "why_tests_cant": "continuum", "anchors": ["causetplotting.py:Plotter"]}
{"id": "C76", "title": "Links in static plots pass through the events on them in order", "statement": "In static mode a link is drawn through both its events and exactly the other plotted events found on it, in order along the segment, with markers on exactly the inner points. (The order is REFUTED for events that are only within the numerical tolerance of the segment: the line may then begin at neither event of the link. Proved for events that are exactly on the segment.)", "quantifier": "all plotted lists of events and coordinates", "why_tests_cant": "universal over reals and lists", "anchors": ["causetplotting.py:Plotter"]}
{"id": "C77", "title": "Axis limits enclose the shape", "statement": "If a shape is given and axislim is unset or 'shape', the axis limits of a 2D plot are the least and greatest coordinates of the shape, those of a 3D plot are a cube about its centre that contains the shape; limits given by the user are kept; for an EmbeddedCauset the shape is set automatically. (The last part is REFUTED: the shape is passed on only after the parameters have been read, so no limits are set, and axislim='shape' raises TypeError.)", "quantifier": "all shapes, dimensions and arguments", "why_tests_cant": "universal over reals", "anchors": ["causetplotting.py:plot_parameters", "causetplotting.py:Plotter"]}
{"id": "C78", "title": "Plotter returns normally for all documented arguments", "statement": "For distinct events the plotting function returns normally whenever 2 or 3 dimensions, known colours, and documented values for the fading functions and switches are given. (REFUTED: conetimefade='' with causal cones raises UnboundLocalError and timedepth with links=False raises KeyError, in every state. Proved: the exact condition for returning normally.)", "quantifier": "every reachable state, event list and set of arguments", "why_tests_cant": "universal", "anchors": ["causetplotting.py:Plotter", "causetplotting.py:plot_parameters"]}
{"id": "C79", "title": "Plot parameters are the settings of the user over the defaults", "statement": "plot_parameters raises ValueError unless 2 or 3 dimensions are given, KeyError exactly if a setting names a colour the scheme does not have, and otherwise returns for each group of artists exactly the settings of the user over the documented defaults with scheme colours converted, and no entry for a group switched off; a positive linkgapsize is the size of the gap markers. (The last part is REFUTED for the default links=True, where the marker size stays 5; proved if links is a dictionary.)", "quantifier": "all arguments and colour scheme histories", "why_tests_cant": "universal", "anchors": ["causetplotting.py:plot_parameters", "colorschemes.py:convertColorsInDict"]}
{"id": "C80", "title": "AntichainPermutations and layeredPermutations yield permutations of antichains and layers", "statement": "Every list yielded by AntichainPermutations holds events of the antichain and leads between two events as far apart as possible; layeredPermutations yields for every layer one such list. (REFUTED for single events: AntichainPermutations yields nothing for an antichain of one event, so layeredPermutations raises RuntimeError for every convex set with a least event. Proved: whatever is yielded has the stated form.)", "quantifier": "every reachable state, event set and recursion limit", "why_tests_cant": "universal over orders", "anchors": ["causetpermutations.py:AntichainPermutations", "causetpermutations.py:layeredPermutations"]}
{"id": "C81", "title": "EmbeddedCauset checks its arguments and builds the embedded causet they describe", "statement": "EmbeddedCauset(spacetime, shape, coordinates, dim) raises ValueError exactly if no dimension fits all arguments; otherwise Spacetime and Shape are the ones given or named or the documented defaults, Dim, Spacetime.Dim and Shape.Dim agree, and one event per row exists, labelled 1, 2, ..., with the coordinates of the row, ordered by the causality of the spacetime. (REFUTED for coordinates given as a list of rows: their lengths are not checked, so incompatible rows are accepted; an empty list raises IndexError, a one-dimensional array TypeError, if nothing else determines the dimension.)", "quantifier": "all combinations of the four arguments and all states of the program", "why_tests_cant": "universal over arguments", "anchors": ["embeddedcauset.py:__init__", "spacetimes.py:DefaultShape"]}
{"id": "C82", "title": "SprinkledCauset builds a sprinkle in the region its arguments describe", "statement": "SprinkledCauset(card=n, dim, spacetime, shape) with n > 0 and compatible arguments has exactly n events, all in the region, Intensity n, linked and ordered by causality; incompatible arguments raise ValueError and create no event. (REFUTED for the default arguments: the default region of flat spacetime is a diamond, whose points are never drawn, so all coordinates are uninitialised memory. Proved for all other regions.)", "quantifier": "all arguments, all random draws, all states of the program", "why_tests_cant": "universal over draws", "anchors": ["sprinkledcauset.py:__init__", "embeddedcauset.py:__init__"]}
{"id": "C83", "title": "Causal cones of flat spacetimes are drawn where the causality function says", "statement": "The function returned by FlatSpacetime.ConePlotter draws, in a plot of time and one spatial axis, exactly the projection of the events up to the time slice that are causally related to the origin (for periodic axes within one period of the origin); in a plot of two or three spatial axes an inscribed polygon or sphere of points on the light cone of the origin or one of its periodic images at the time slice; in a 3D plot with a time axis surfaces on the light cone from the origin to the time slice. (The last part is REFUTED if the time axis is not the last one: the cone of the event at time -1 at the position 0 has points that are not on its light cone. Proved for time axis last.)", "quantifier": "all dimensions, periods, origins, time slices, axes and sampling sizes", "why_tests_cant": "continuum", "anchors": ["spacetimes.py:FlatSpacetime.ConePlotter", "shapes.py:OpenConeSurface"]}
{"id": "C84", "title": "Causal cones of de Sitter spacetime are drawn where the causality function says", "statement": "The cones drawn for de Sitter spacetime are bounded by the light cone of the origin: in two dimensions the polygon has at each sampled time exactly the least and greatest related position as corners; slices and surfaces over two spatial axes have all their points on the light cone; events beyond the horizon have no cone. (REFUTED for events off the plotted plane in four or more dimensions: in a 3D plot the cone then does not even begin at the event. Proved for events in the plotted plane.)", "quantifier": "all dimensions, radii, origins, time slices, axes and sampling sizes", "why_tests_cant": "continuum", "anchors": ["spacetimes.py:deSitterSpacetime._XY_slice", "spacetimes.py:_dSSpacetime._XT_slice", "spacetimes.py:ConePlotter"]}
{"id": "C85", "title": "Causal cones of black holes are drawn where the causality function says", "statement": "The polygon drawn for the cone of an event off the horizon consists of sampled light rays whose corners are, at their positions, the earliest or latest times at which an event is in the causal future (past) of the event, of the point of the ingoing ray at the time slice, and of points at the singularity; a second part inside the horizon is drawn exactly if the singularity can be reached before the time slice; the derivatives used to find the end of a ray are correct. Cones that are not implemented raise NotImplementedError.", "quantifier": "all radii, origins off the horizon, time slices, sampling sizes and both metrics", "why_tests_cant": "continuum", "anchors": ["spacetimes.py:BlackHoleSpacetime._XT_slice", "spacetimes.py:_light_EF", "spacetimes.py:_light_S"]}
{"id": "C86", "title": "plotDiagram places the events by the permutation", "statement": "plotDiagram(E, permutation) places the i-th event at the light-cone coordinates (i, permutation[i]), so that later events are drawn higher and positions are related exactly as the permutation says; with a permutation of another length the Position attributes are used as they are. (REFUTED for (i, permutation[i]): the code uses the inverse permutation, e.g. for 2, 3, 1 the first event is at (0, 2). Proved: the second coordinate is the place of i + 1 in the permutation, and the order and the direction of the diagram follow.)", "quantifier": "all lists of events, permutations, plot arguments and positions", "why_tests_cant": "universal over permutations", "anchors": ["causetplotting.py:plotDiagram", "causetplotting.py:plot", "embeddedcauset.py:_Permutation_Coords"]}
{"id": "C87", "title": "Parameters of shapes can be read and printed", "statement": "Parameter(key) of a CoordinateShape returns the parameters of its kind of shape and raises KeyError otherwise; str is the dimension and name, marked hollow exactly if there is a hole; repr returns a text. (REFUTED for repr: it raises AttributeError for every shape.)", "quantifier": "all shapes and keys", "why_tests_cant": "universal", "anchors": ["shapes.py:CoordinateShape.Parameter", "shapes.py:CoordinateShape.__str__", "shapes.py:CoordinateShape.__repr__"]}
{"id": "C88", "title": "Reading and plotting a shape does not change it", "statement": "Calls of Volume, Limits, MaxEdgeHalf, Parameter, str and plot leave all parameters of a CoordinateShape as they were constructed, and Volume returns the same number at every reading. (REFUTED for hollow bicones: every plot in three dimensions one of which is the time multiplies the radius by the relative radius of the hole.)", "quantifier": "all shapes and all sequences of calls", "why_tests_cant": "universal over histories", "anchors": ["shapes.py:CoordinateShape.plot", "shapes.py:CoordinateShape.Volume", "shapes.py:CoordinateShape.Limits"]}
{"id": "C89", "title": "Every program of API calls keeps the events a causal set", "statement": "In every state reached by any sequence of calls that construct events and causets (CausetEvent, FromPermutation, NewChain, NewAntichain, NewFence, NewCrown, NewSimplex, FromPastMatrix and FromFutureMatrix of order matrices, create), change them (relabel, link, unlink, disjoin, merge of closed disjoint causets, add, discard) or ask questions, the relation < is a strict partial order and the past and future of the events mirror each other; if the program only disjoins linked events that are bypassed by another event, merges only causets without link memory and links only closed causets, then all link queries answer with the covering relation of the current order, whatever was asked before. Questions change neither order nor labels.", "quantifier": "all programs (finite sequences of calls), all arguments and all iteration orders of sets", "why_tests_cant": "universal over histories", "anchors": ["causetevent.py:CausetEvent", "causet.py:Causet", "embeddedcauset.py:EmbeddedCauset.create"]}
{"id": "C90", "title": "Plots draw the causal cones of the right events with the right opacity", "statement": "In every plot that returns, past cones (if switched on) are drawn for exactly those events that are after the first time value, have a past cone in the spacetime and a positive opacity, in the order of the events, and future cones for the events before the last time value; the opacity is at most the value 'alpha' of the cone parameters (0.1 by default) and falls with the time distance r: linearly to 0 at conetimedepth, as exp(-r / conetimedepth), or as (r + 1)^(1 - dimension of the plot) for 'intensity'. No cones are drawn if they are switched off.", "quantifier": "all events, coordinates, time slices, cone parameters and states", "why_tests_cant": "continuum", "anchors": ["causetplotting.py:Plotter", "causetplotting.py:dynamic_parameter", "spacetimes.py:Spacetime.ConePlotter"]}
{"id": "C91", "title": "Answers do not depend on the iteration order of Python sets", "statement": "Two interpreters with different hash seeds iterate over the same sets in different orders. Relations, pasts, futures, intervals, layers, ranks, components, link sets, link counts, paths and antichain tests answer the same for every iteration order, and construction, linking, unlinking, disjoining, adding and discarding of events lead to states with the same order and labels. (REFUTED for CentralAntichain: even the number of events in the antichain may depend on the iteration order; and for link queries after disjoin of events that are not bypassed.)", "quantifier": "all states, all arguments and all pairs of iteration orders", "why_tests_cant": "universal over schedules of set iteration", "anchors": ["causetevent.py:CausetEvent", "causet.py:Causet", "causet.py:CentralAntichain"]}
{"id": "C92", "title": "Arguments documented as Iterable can be any iterable", "statement": "CausetEvent(past, future), merge, add, discard and Antipaths have the same effect for sets, lists (with or without repetitions), tuples, causets and iterators that yield their events once. (REFUTED for merge with an iterator as future set: only the first past event is related to it, and the returned causet misses events; for Antipaths along an iterator: nothing is found or ValueError is raised; for discard of a causet from itself: one event is removed and RuntimeError is raised. Proved for the others.)", "quantifier": "all states and all iterables of events", "why_tests_cant": "universal over arguments and kinds of iterables", "anchors": ["causetevent.py:CausetEvent.__init__", "causet.py:merge", "causet.py:add", "causet.py:discard", "causet.py:Antipaths"]}
{"id": "C93", "title": "Constructing a causet does not touch the events that exist", "statement": "FromPermutation, NewChain, NewAntichain, NewFence, NewCrown, NewSimplex, FromPastMatrix, FromFutureMatrix and FromTextFile, for all arguments and also if they raise, leave labels, pasts, futures and links of all events that existed before as they were; all events of the new causet are new and unrelated to the old ones.", "quantifier": "all states, all arguments (including matrices that are not orders), all iteration orders, successful and failing calls", "why_tests_cant": "universal over states and arguments", "anchors": ["causet.py:FromPermutation", "causet.py:NewFence", "causet.py:NewSimplex", "causet.py:FromPastMatrix", "causet.py:FromTextFile"]}
{"id": "C94", "title": "A call that raises an exception leaves the causal order and links right", "statement": "If unlink or disjoin of an event raises, nothing has changed; if link, unlink, add or discard of a causet raises, the order is unchanged and link queries answer as before. (REFUTED for Causet.link: after it raised, LinkFuture may miss links; for relate and create with an event that is not embedded: the relations of all events are lost when AttributeError is raised. Proved for the other calls, and for the order after Causet.link.)", "quantifier": "all states, arguments and points where an exception may arise", "why_tests_cant": "universal over crash points", "anchors": ["causetevent.py:unlink", "causetevent.py:disjoin", "causet.py:link", "causet.py:add", "causet.py:discard", "embeddedcauset.py:relate"]}
{"id": "C95", "title": "The library neither changes nor keeps the sets that it is given", "statement": "Whatever calls a program has made before, and for every iteration order of sets: CausetEvent(past=, future=), Causet(...), merge, add, discard, PastOf, FutureOf, ConeOf and all other calls leave every set object of the program (one that is no Past, Future or link set of an event) unchanged and do not make an event refer to it, except that add and discard change the set of the causet they are called on, to exactly the union and the difference (also if they end in an exception, and also if the argument is the causet's own set). A new Causet and the result of merge have a set of their own, so changing the set that was passed to the constructor does not change the causet.", "quantifier": "all programs of calls, all arguments (also sets that belong to events), all iteration orders of sets", "why_tests_cant": "aliasing between set objects depends on the whole history of assignments and in-place operations", "anchors": ["causetevent.py: CausetEvent.__init__, copy, link, disjoin, _addToPast, _addToFuture, _discard", "causet.py: Causet.__init__, merge, add, discard, PastOf, FutureOf, ConeOf, link, unlink"]}
{"id": "C96", "title": "Passing sets by reference has the effect of passing their values", "statement": "In every state that a program reaches (obeying the documented hypotheses), every call of the API with set objects as arguments has the outcome of the function on the values of the sets at the time of the call: the same events, order, links, labels, returned set and exception. It does not matter whether a set that is passed is also the Past, the Future or a link set of an event that the call changes while it iterates; no loop ends with 'RuntimeError: Set changed size during iteration'. So every statement about values holds for the code with references.", "quantifier": "all programs of calls, all arguments including aliased sets, all iteration orders of sets", "why_tests_cant": "aliasing and mutation during iteration show up only for particular combinations of earlier calls and arguments", "anchors": ["causetevent.py: CausetEvent.__init__, copy, link, unlink, disjoin, Past, Future, Cone, LinkPast, LinkFuture", "causet.py: Causet.__init__, merge, add, discard, PastOf, FutureOf, ConeOf, link, unlink"]}
{"id": "C97", "title": "Sets returned by the library are independent of the events", "statement": "A set that a property or function returns does not change by later calls, and the program may change it without changing the events. Holds for Cone, PresentOrPast, PresentOrFuture, PastOf, FutureOf, ConeOf, Causet and merge. False for Past, Future (and LinkPast, LinkFuture): they return the internal set, which later calls change (a.Past grows when an event with a in its future is created), and b.Past.clear() destroys the order relations of b while the other events keep theirs. The object stays the same until disjoin of that event, after which the old object keeps its outdated elements.", "quantifier": "all programs before and after the call, all iteration orders of sets", "why_tests_cant": "needs all later calls of the program", "anchors": ["causetevent.py: CausetEvent.Past, Future, Cone, PresentOrPast, PresentOrFuture, LinkPast, LinkFuture, disjoin", "causet.py: Causet.PastOf, FutureOf, ConeOf, merge"]}
{"id": "C98", "title": "Embedded causets are ordered by the causal relation of their spacetime", "statement": "For every spacetime of the library, Causality() tells the causal relation of that spacetime (Minkowski space, flat cylinder or torus, de Sitter hyperboloid, black hole light rays, the relation of time for the base class), and EmbeddedCauset(spacetime, shape, coordinates, dim) with compatible arguments creates one event per row in a causal set in which event i precedes event j exactly if row i is in the causal past of row j. Different points of Minkowski, de Sitter and black hole spacetimes never precede each other mutually.", "quantifier": "all constructed spacetimes, all argument combinations, all lists of points in the region where the relation is meaningful (within one period, off a horizon, for AdS where the relation is transitive) and not within the tolerance of a light cone, all states and iteration orders", "why_tests_cant": "ranges over all points and spacetimes; sampled points cannot show that every pair is related correctly", "anchors": ["embeddedcauset.py:EmbeddedCauset.__init__", "embeddedcauset.py:create, relate", "spacetimes.py:Causality"]}
{"id": "C99", "title": "A spacetime given by name is the spacetime of that name and metric", "statement": "A spacetime constructed by name has the given dimension, and its Name constructs the same spacetime again; where the given name is also the name of a metric ('Minkowski', 'Schwarzschild'), the spacetime has that metric. (The last part is REFUTED for 'Schwarzschild', which gives the Eddington-Finkelstein metric with another causal order: (0, 1/4) precedes (0, 1/8) in the Schwarzschild metric, but not in the spacetime that is constructed.)", "quantifier": "all names, dimensions and constructor arguments", "why_tests_cant": "ranges over all names and dimensions, and a difference in the causal order shows only at particular points", "anchors": ["embeddedcauset.py:EmbeddedCauset.__init__", "spacetimes.py:Dim, Name, MetricName, BlackHoleSpacetime.__init__"]}
{"id": "C100", "title": "EmbeddedCauset.FromPermutation rejects lists that are no permutations", "statement": "Like Causet.FromPermutation (C10), EmbeddedCauset.FromPermutation raises an exception for every list that is not a permutation of 1..n, and all events of the result are in the shape of the causet. (REFUTED: only entries above n or below 1-n raise, with IndexError. Any other list is accepted, the last entry k or k-n gives the coordinates of event k; events without such an entry have the contents of uninitialised memory as coordinates, and entries that are not positive put events outside the diamond.)", "quantifier": "all lists of integers, radii, label formats, states, iteration orders, contents of uninitialised memory", "why_tests_cant": "ranges over all lists and over the contents of memory", "anchors": ["embeddedcauset.py:EmbeddedCauset.FromPermutation", "embeddedcauset.py:EmbeddedCauset._Permutation_Coords"]}
{"id": "C101", "title": "The events of a sprinkle are independent and uniformly distributed in the shape", "statement": "If the draws of the random generator are independent, uniform() uniformly distributed on [0,1) and standard_normal() normally distributed, the events that sprinkle(n) (or the constructor with card=n, or intensify) adds have coordinates that are independent of each other and uniformly distributed in the shape: the probability of an event in B is the volume of B inside the shape divided by shape.Volume. With probability one no division by zero occurs, no two events have a common coordinate, and the order of a new causet is exactly the causality of the coordinates. (REFUTED for bicones, which are not sprinkled: C48.)", "quantifier": "all cubes, cuboids, balls and cylinders (hollow or not) of any dimension, centre and size, all measurable sets B, all numbers of events, all random generators with the stated distribution, all causets in good order, all iteration orders", "why_tests_cant": "a distribution cannot be settled by samples, and a wrong exponent or hollow factor changes only the distribution, not whether the points are in the shape", "anchors": ["sprinkledcauset.py:SprinkledCauset._sprinkle_coords", "sprinkledcauset.py:SprinkledCauset.sprinkle", "sprinkledcauset.py:SprinkledCauset.__init__"]}
{"id": "C102", "title": "intensify is a Poisson process", "statement": "With a generator as in C101 whose poisson(lam) has the Poisson distribution and is independent of the other draws, intensify(lam) (or the constructor with intensity=lam) is a Poisson process: the number of new events in a set B has the Poisson distribution with mean lam * volume(B inside the shape) / shape.Volume, and the numbers in disjoint sets are independent. For a new causet the expected number of events in B is Density times the volume, and the probability of no event in B is exp(-Density * volume). intensify(lam1) followed by intensify(lam2) is distributed like intensify(lam1 + lam2). (False for bicones: C48, C101.)", "quantifier": "all cubes, cuboids, balls and cylinders of any dimension, all finite families of disjoint measurable sets, all lam >= 0, all random generators with the stated distribution, all causets in good order", "why_tests_cant": "a statement about the joint distribution of infinitely many random quantities", "anchors": ["sprinkledcauset.py:SprinkledCauset.intensify", "sprinkledcauset.py:SprinkledCauset.__init__", "sprinkledcauset.py:SprinkledCauset.Density"]}
{"id": "C103", "title": "Calls of a plotting function do not depend on the calls before", "statement": "Plotter(...) returns a function that can be called at any number of times (a slider, an animation). Whatever calls and changes of events happened before, a call creates exactly the artists, with the same coordinates and keyword arguments for matplotlib, that it would have created as first call; as long as the causal order is the same as at the set-up, these are the artists of a new plot of the events as they are now. A float t means [t, t] and only the first and last entry of a list of times count. (REFUTED: the returned dictionary is the same object for all calls, so a later call overwrites the handles returned by an earlier one; and if events became linked after the set-up, a call raises IndexError where a new plot succeeds.)", "quantifier": "all events, links, coordinates, plot arguments, colour schemes, fading functions, spacetimes (cone geometries), all histories of calls (also failing ones) and of changes of events, links and coordinates, all times", "why_tests_cant": "every call changes the shared dictionaries of plot parameters, so the outcome could depend on the whole history of calls", "anchors": ["causetplotting.py:Plotter", "causetplotting.py:plot", "spacetimes.py:Spacetime.ConePlotter", "spacetimes.py:FlatSpacetime.ConePlotter"]}
{"id": "C104", "title": "Causality in floating point arithmetic", "statement": "The causality functions compute with binary64 numbers, rounding after every operation. The answers still never claim both directions; the second answer means that the second point precedes the first and not conversely; in flat spacetime the answers respect the order of the times exactly. In two-dimensional Minkowski spacetime no causal relation is lost by rounding, whatever the size of the coordinates. In every flat spacetime (any dimension and periods), if the tolerance is at least (4 dim + 12) 2^-53 times the size of the numbers (for causality_eps and at most four dimensions: coordinate differences up to 7), no causal relation is lost and pairs reported as causal are at most 2 causality_eps outside of the light cone; if no pair of points is that close to the light cone, create gives exactly the causal set of the points. In de Sitter and anti-de Sitter spacetime and for black holes the answers are those of exact arithmetic up to explicit error bounds (for de Sitter spacetime of radius 1 in at most four dimensions, |t| <= 1 and r <= 1/2: no causal pair is lost and reported pairs are causal up to 2e-12); relations that lead from outside towards a black hole are never lost in Eddington-Finkelstein coordinates. (REFUTED for larger coordinates: in three dimensions there are points with coordinates of size 129, one in the past of the other, that are reported as unrelated; and near the singularity of a black hole: at the radius 2^-60 no relation to the centre is found.)", "quantifier": "all roundings to nearest (in particular ties to even), all points with binary64 times, all flat spacetimes, dimensions and periods, all tolerances; for de Sitter, anti-de Sitter and black hole spacetimes all (accurate) functions of the mathematical library; all sets of points and all iteration orders", "why_tests_cant": "rounding errors depend on the bits of the coordinates; a test samples a few of 2^64 values per coordinate", "anchors": ["spacetimes.py:FlatSpacetime.Causality", "spacetimes.py:deSitterSpacetime.Causality", "spacetimes.py:AntideSitterSpacetime.Causality", "spacetimes.py:BlackHoleSpacetime.Causality", "spacetimes.py:causality_eps", "embeddedcauset.py:EmbeddedCauset.create"]}
{"id": "C105", "title": "Programs working on one causet cannot affect another", "statement": "Take any set of events from which nothing leads out (in particular a closed causet, or everything except a closed causet), together with all events that are created later. A program that only passes events of this set to the library, in any calls of constructors, changing methods and questions, leaves everything about all other events as it is: labels, pasts, futures, remembered links, coordinates. All events it gets as results are again in the set. This holds however the program misuses the library (merging sets that are not closed, relating parts, matrices that are no order) and whatever exceptions occur. So two programs that work on two causets cannot disturb each other.", "quantifier": "all start states, all self-contained sets of events, all finite sequences of calls (valid or not, returning or raising), all iteration orders, causality functions, random numbers and texts", "why_tests_cant": "a leak through a shared set or a stale link memory shows up only for particular histories of calls; the number of histories is infinite", "anchors": ["causetevent.py:CausetEvent", "causet.py:Causet", "embeddedcauset.py:EmbeddedCauset", "sprinkledcauset.py:SprinkledCauset"]}
{"id": "C106", "title": "layeredPermutations enumerates the combinations of layer permutations", "statement": "`layeredPermutations(C, eventSet)` promises all possible permutations of all layers. It first takes the layers of the event set, and then yields the combinations of one list per layer, where the lists of a layer are those of `AntichainPermutations`: each combination once, in dictionary order with the last layer changing fastest, and no other, until all have been yielded or the generator of a layer fails. Each list of a combination contains at least two events, all of its layer.", "quantifier": "all causets, all order-convex event sets, all iteration orders, all recursion limits, any number of requests to the generator", "why_tests_cant": "the carry logic of the odometer over several generators has an unbounded number of states; tests see a few layer sizes", "anchors": ["causetpermutations.py:layeredPermutations"]}
{"id": "C107", "title": "Results of permuted_old", "statement": "`permuted_old(C, eventSet, maxIterations)` returns two empty lists or a list of the events of the set and a list of numbers, both as long as the set; it is the result with the least number of extended causal relations among the first `maxIterations` combinations of layer permutations. It raises ValueError if there are more combinations. The event list should be a permutation of the set.", "quantifier": "all causets, all order-convex event sets, all limits, all iteration orders, all recursion limits", "why_tests_cant": "the placement loop depends on all layers of the causet at once; the failures need particular shapes with seven or more events", "anchors": ["causetpermutations.py:permuted_old"]}
{"id": "C108", "title": "AntichainPermutations_old yields all permutations of an antichain", "statement": "`AntichainPermutations_old(C, eventSet, pastLayer)` promises to yield all possible permutations of the antichain. For at most one event it yields the only ordering. For two events without a past layer it yields one ordering and ends. For three or more events without a past layer it never yields and never ends. For two or more events with a past layer the first request raises IndexError. So it never yields all permutations of an antichain with at least two events.", "quantifier": "all causets, all antichains of any size, all past layers, all labels that can be sorted, all iteration orders, any number of rounds of the loop", "why_tests_cant": "that a generator never yields cannot be observed by a test of any duration", "anchors": ["causetpermutations.py:AntichainPermutations_old"]}
{"id": "C109", "title": "Isomorphic causets give the same answers", "statement": "If a bijection between the events of two causally closed sets preserves and reflects the causal relation, then every query about the causal structure of corresponding events, sets and lists has corresponding answers: comparisons, cones, intervals, cardinalities, infinities, chains, layers, distances, antichain paths, components, links, ranks, paths and matrices. So no answer depends on the identities of the events, on how the causets were created, on other events and relations in the same process, on the links computed before, or on the iteration order of sets; for the same set of events in two states only the relations between these events matter. Causets that are created with the same order by different calls are isomorphic.", "quantifier": "all pairs of consistent states, all isomorphisms between causally closed sets of events, all events, sets and lists of events in them, all arguments, all iteration orders, all states of the link memory", "why_tests_cant": "it compares all pairs of histories that lead to isomorphic causets", "anchors": ["causetevent.py:CausetEvent", "causet.py:Causet"]}
{"id": "C110", "title": "Time reversal exchanges past and future in all answers", "statement": "If a bijection between the events of two causally closed sets reverses the causal relation, then every query about the causal structure has the mirrored answer: Past and Future, PastOf and FutureOf, past and future infinity, LinkPast and LinkFuture, PastMatrix and FutureMatrix, layered and its reverse are exchanged; cones, spacelike regions, chains, antichains, components, interval sizes, distances, antichain paths, link counts and ranks stay; layer and rank numbers change their sign; Layers and Ranks from first to last become those from -last to -first; paths are listed backwards. FromPastMatrix and FromFutureMatrix of the same matrix create causets that are the time reverse of each other.", "quantifier": "all pairs of consistent states, all order-reversing bijections between causally closed sets of events, all events, sets and lists of events in them, all arguments, all iteration orders, all states of the link memory", "why_tests_cant": "it compares all pairs of histories that lead to mirrored causets, and each pair of mirrored functions on all inputs", "anchors": ["causetevent.py:CausetEvent", "causet.py:Causet", "causet.py:Causet.Layers", "causet.py:Causet.Ranks"]}
{"id": "C111", "title": "Paths and antipaths may be consumed step by step while the program does other things", "statement": "`Paths` and `Antipaths` return generators; the program may take their values one by one and call anything else in between. For `Paths(a, b, length)` in the modes 'any', int and list: as long as the calls in between do not change the events between a and b and their order (they may create events elsewhere, compute or forget links, run other generators), the program gets altogether every path of links of the requested length as of the first step, each once, and no exception. The extremal modes 'min', 'max' and 'timegeo' and `Antipaths` decide at their first step what they yield, whatever happens afterwards. A bad `length` raises at the first step, not at the call. Taken at once, the generators yield the lists of C33, C34.", "quantifier": "all consistent states, all pairs of events, all values of length, all interleavings with other calls, all iteration orders of sets (which may differ from step to step), all states of the link memory", "why_tests_cant": "interleavings of generator steps with other calls are unbounded schedules; tests exhaust the generators at once", "anchors": ["causet.py:Causet.Paths", "causet.py:Causet.Antipaths"]}
{"id": "C112", "title": "A loop over a causet never repeats or silently skips events while the causet changes", "statement": "`for e in C` and `for e in C.findAny(labels)` iterate over the event set of the causet itself. If the body leaves the causet alone, every event (with a label in `labels`) is visited exactly once. If the body adds or removes events, the loop raises RuntimeError at the first step at which the number of events differs from the number at the start, even if all events have been visited; before that it never visits an event twice or one that was not in the causet. A loop that ends normally has skipped no event. In particular a loop that removes (or adds) an event in its first round gets exactly one event.", "quantifier": "all causets, all changes to the causet and to the labels between the steps (other than replacing events so that the number stays), all iteration orders", "why_tests_cant": "the changes made by a loop body are an arbitrary history", "anchors": ["causet.py:Causet.__iter__", "causet.py:Causet.findAny"]}
{"id": "C113", "title": "The default region of a spacetime contains the causal intervals of its points", "statement": "A sprinkled or embedded causal set describes the causal intervals of its events faithfully only if its region contains, with any two points, every point between them (causal convexity). For `DefaultShape()` of every spacetime this holds. Of the other shapes, the user can rely on it for the bicone.", "quantifier": "all spacetimes, dimensions, periods and radii; all shapes with all parameters; all points of spacetime", "why_tests_cant": "a statement about all pairs of points of a region and all points between them", "anchors": ["spacetimes.py:Spacetime.DefaultShape", "spacetimes.py:FlatSpacetime.DefaultShape", "spacetimes.py:FlatSpacetime.Causality", "spacetimes.py:deSitterSpacetime.Causality", "spacetimes.py:AntideSitterSpacetime.Causality", "spacetimes.py:BlackHoleSpacetime.Causality", "shapes.py:CoordinateShape"]}
{"id": "C114", "title": "The printed text of a causal set shows it completely", "statement": "`str(e)` shows the label of an event. `repr(e)` shows the class name with the past links of the event (each once), its label and its coordinates, leaving out what does not exist; `repr(C)` (and `print(C)`) shows every event of the causal set exactly once. Printing changes nothing that can be observed. The printed text determines the causal set: two causal sets with the same text are isomorphic with the same labels and coordinates.", "quantifier": "all consistent states (whatever has been linked before), all events, causal sets, labels, coordinates and iteration orders of Python sets", "why_tests_cant": "a statement about all pairs of causal sets with the same text, and the text depends on the iteration order of sets, which a test sees only once", "anchors": ["causetevent.py:CausetEvent.__str__", "causetevent.py:CausetEvent.__repr__", "causet.py:Causet.__repr__"]}
{"id": "C115", "title": "Sprinkles in single precision are causal sets in their region", "statement": "Sprinkled coordinates are stored as float32, and flat causality then computes differences and squares in float32 (sums and tolerance in float64 with NumPy 1, in float32 with NumPy 2). Still: the answers never claim both directions and respect the times exactly; in two-dimensional Minkowski spacetime no causal relation is lost; in higher dimensions the answers are right for all pairs that are not within a relative error of about (4 dim + 12) 2^-24 (of the squared distance) of the light cone, and if no pair of points is that close, the created causal set is exactly that of the points. Coordinates are within the limits of the cube or cuboid, rounded to float32 (so in the cube, if its limits are float32 numbers); in balls and cylinders the distance from the centre is the intended one up to a relative error of 2^-23 (relative to the norm of the centre plus the distance), and times in a cylinder are within its limits up to rounding. [REFUTED: without that condition causal relations are lost, the tolerance 1e-12 is far below the rounding errors: sprinkle(3) in the unit cube in three dimensions can give a < b < d without a < d, no causal set. REFUTED: for other limits, events can be outside of the cube.]", "quantifier": "all roundings to nearest, all float32 coordinates, all dimensions from 2 to 100000 (any dimension for the directions), all values of the random generator within its limits, all consistent program states and iteration orders; both NumPy promotion rules", "why_tests_cant": "rounding errors depend on all bits of the coordinates; the lost relations are a tiny fraction of all pairs and random tests do not meet them", "anchors": ["sprinkledcauset.py:SprinkledCauset._sprinkle_coords", "sprinkledcauset.py:SprinkledCauset.sprinkle", "spacetimes.py:FlatSpacetime.Causality", "embeddedcauset.py:EmbeddedCauset.relate", "shapes.py:CoordinateShape.__init__"]}
{"id": "C116", "title": "Causality with infinite, undefined and very large coordinates", "statement": "The causality functions accept any binary64 coordinates, inf and nan included. In flat and black hole spacetimes they never raise, never claim both directions, and 'first precedes second' implies that the first time is not greater (except in Schwarzschild coordinates with a point inside, where the time runs along the radius), exactly, also if a time is infinite or a difference overflows; in de Sitter and anti-de Sitter spacetime they never claim both directions and raise or not independently of the order of the points; a nan coordinate (or the same infinite coordinate in both points) makes two points unrelated; an event at time +inf follows every event with finite coordinates and an event at infinite distance is unrelated to all at moderate times. For coordinates up to 2^490 (2^400 with black holes, times up to 338 radii in de Sitter spacetime) there is no overflow and the answers are those of C104. Points exactly on the horizon of a black hole are related as in C44: in Eddington-Finkelstein coordinates no relation with a point off the horizon is lost to rounding, in Schwarzschild coordinates they precede exactly the points inside. In 2-dimensional Minkowski spacetime overflow loses no relation. [REFUTED: in three and more dimensions squares overflow: points with a distance 2^300 times the time between them are 'related' from coordinates of about 2^512 on. REFUTED: de Sitter causality raises OverflowError for events at times beyond about 355 radii, even if they are causally related to the origin; anti-de Sitter causality raises ValueError for infinite times.]", "quantifier": "all roundings to nearest, all binary64 values of the coordinates (nan, infinities, all finite numbers), all dimensions (up to 2^20 where no overflow is claimed), all mathematical libraries with errors of at most two units in the last place", "why_tests_cant": "inf - inf, nan comparisons and overflow are reached only by extreme values of several coordinates at once, and each comparison chain treats nan differently", "anchors": ["spacetimes.py:Spacetime.Causality", "spacetimes.py:FlatSpacetime.Causality", "spacetimes.py:deSitterSpacetime.Causality", "spacetimes.py:AntideSitterSpacetime.Causality", "spacetimes.py:BlackHoleSpacetime.Causality"]}
{"id": "C117", "title": "Coordinate rows of any length", "statement": "For every two coordinate rows the causality function of a spacetime raises IndexError exactly if one of them has fewer entries than the function reads one by one, ValueError exactly if the space parts are subtracted as arrays and NumPy cannot broadcast them (different lengths, neither of them a single space coordinate), nothing if in de Sitter spacetime one of them is beyond the horizon, and no other exception; which one does not depend on the order of the rows. Rows with exactly Dim entries are compared as the points of C43 and C44. relate() raises the exception of a pair of events that cannot be compared if and only if there is one, whatever the iteration order; then labels, coordinates, link memory and the past of events outside the causet are unchanged, and events of the causet are related only if the causality function reports it. EmbeddedCauset(coordinates=rows) is accepted exactly if no two rows raise, and then has one event per row with the row as its coordinates. [REFUTED: 'a ValueError is raised if the dimensions of any of the four optional arguments are not compatible': in Minkowski spacetime of dimension d >= 3 rows with any number n >= 3 of entries are accepted and ordered as in Minkowski spacetime of dimension n. REFUTED: a failed relate() leaves the order as it was: with an event without coordinates (CausetEvent() has the coordinates []) it raises IndexError, and for some iteration order no two events are related afterwards although their links are still recorded.]", "quantifier": "all lists of rows of any lengths, all spacetimes the constructors return, all iteration orders, all states of the events", "why_tests_cant": "whether and what is raised depends on the lengths of all pairs of rows, on NumPy's broadcasting and on the iteration order of a set", "anchors": ["embeddedcauset.py:EmbeddedCauset.__init__", "embeddedcauset.py:EmbeddedCauset.create", "embeddedcauset.py:EmbeddedCauset.relate", "spacetimes.py:FlatSpacetime.Causality", "spacetimes.py:deSitterSpacetime.Causality", "spacetimes.py:AntideSitterSpacetime.Causality", "spacetimes.py:BlackHoleSpacetime.Causality"]}
{"id": "C118", "title": "repr of a spacetime is an expression for it", "statement": "eval(repr(M)) returns a spacetime equal to M: for every de Sitter and anti-de Sitter spacetime and for every flat spacetime with a tuple of periods (of which one is positive), and so these have the same text only if they are equal. str(M) = str(N) exactly if class and dimension are equal; it shows no parameters. [REFUTED for all others: repr raises KeyError for a flat spacetime that is not periodic; with a float as period the text is no Python expression in three or more dimensions (SyntaxError) and raises ValueError when it is evaluated in one or two dimensions; for a black hole it raises NameError, for the base class TypeError.]", "quantifier": "all spacetime objects the constructors return, with all dimensions and parameters", "why_tests_cant": "universal over dimensions and parameters; the texts have tuples of any length", "anchors": ["spacetimes.py:Spacetime.__repr__", "spacetimes.py:Spacetime.__str__", "spacetimes.py:FlatSpacetime.__repr__", "spacetimes.py:BlackHoleSpacetime.__repr__"]}
{"id": "C119", "title": "Periodic flat spacetimes in single precision", "statement": "With float32 coordinates (as sprinkled) in flat spacetime with periods, where the types of the intermediate results depend on NumPy's promotion rules, on the types of the periods and even on the values: the answers never claim both directions and respect the times exactly; they are right for all pairs of points in one fundamental domain that are not within a relative error of (4 dim + 40) 2^-24 of the light cone on the torus (20 * 2^-24 of the distance in two dimensions), where the error is relative to the coordinate differences, or the period if a difference is more than a third of it; and if no pair of points is that close, the created causal set is exactly that of the points on the torus. [REFUTED: in two dimensions no causal relation is lost, as without periods: around a cylinder of circumference 1 relations are lost.]", "quantifier": "all dimensions up to 100000, all periods (Python floats, float32, float64), both NumPy promotion rules, all roundings to nearest, all float32 coordinates, all consistent program states and iteration orders", "why_tests_cant": "rounding errors depend on all bits of the coordinates; the types change from pair to pair", "anchors": ["spacetimes.py:FlatSpacetime.Causality", "spacetimes.py:FlatSpacetime.__init__", "sprinkledcauset.py:SprinkledCauset._sprinkle_coords", "embeddedcauset.py:EmbeddedCauset.relate"]}
{"id": "C120", "title": "Curved spacetimes in single precision", "statement": "With float32 coordinates (as sprinkled) in de Sitter and anti-de Sitter spacetime, where NumPy computes partly in single and partly in double precision depending on its version: an answer means that the pair is causal in the embedding up to an explicit error in units of 2^-24, and a pair that is timelike by more than this error gets the answer of the right direction; for radius 1, at most four dimensions, |t| <= 1 and r <= 1/2 the error of the interval is less than 5e-4 and that of the embedding times less than 3.4e-5. If no two different points of a de Sitter spacetime are within the error of each other's light cone, the answers are the exact causal order and the created causal set is that of the points. In black hole spacetimes, away from the horizon, an answer is right up to a change of a time by an explicit error in units of 2^-24, infalling relations from the outside are never lost, points on different sides get no answer (without underflow), and swapping the points swaps the answers. Both directions are never claimed.", "quantifier": "all dimensions, radii, tolerances and points for which the explicit error bounds are moderate, both NumPy promotion rules, all roundings to nearest, all mathematical libraries of a given accuracy, all consistent program states and iteration orders", "why_tests_cant": "rounding errors depend on all bits of the coordinates and on the mathematical library", "anchors": ["spacetimes.py:deSitterSpacetime.Causality", "spacetimes.py:AntideSitterSpacetime.Causality", "spacetimes.py:BlackHoleSpacetime.Causality", "sprinkledcauset.py:SprinkledCauset._sprinkle_coords", "embeddedcauset.py:EmbeddedCauset.relate"]}
{"id": "C121", "title": "Sprinkling into a region of another dimension", "statement": "`sprinkle` and `intensify` with a region of the dimension of the causet do what C48 and C72 say. With a region of another dimension: no point means no exception; a one-dimensional cube or cuboid puts all points on the diagonal (all coordinates equal, within the edge); a one-dimensional ball and a two-dimensional cylinder are used as the ball and cylinder of the dimension of the causet whose centre continues with the last coordinate; every other cube, cuboid, ball or cylinder raises ValueError (ZeroDivisionError for cylinders in one dimension), and then no event is created and no object changed except the intensity, which keeps the increase. [A region of another dimension is always rejected, and the causet then unchanged.]", "quantifier": "all dimensions of the causet and of the region, all regions, numbers of points, intensities, random draws, program states and iteration orders", "why_tests_cant": "whether NumPy broadcasts or raises depends on all combinations of dimensions, and what is left behind after an exception on the state before", "anchors": ["sprinkledcauset.py:SprinkledCauset._sprinkle_coords", "sprinkledcauset.py:SprinkledCauset.sprinkle", "sprinkledcauset.py:SprinkledCauset.intensify"]}
{"id": "C122", "title": "Symmetries of the spacetime leave the causal set unchanged", "statement": "If all coordinates are moved by a symmetry of the spacetime, the embedded causal set is the same: the same events, labels, order and links. Symmetries are: translations, rotations, reflections and boosts of Minkowski spacetime; translations and reflections with periods; rotations of space and translations of time in de Sitter and anti-de Sitter spacetime; translations of time and the reflection of the radius of black holes. Translations and rotations of flat spacetimes, rotations in curved spacetimes and all symmetries of black holes give exactly the same values with every tolerance; boosts and translations of time in de Sitter spacetime with exact comparisons, and with the tolerance if no pair of points is within the tolerance of the light cone. In flat and (anti-)de Sitter spacetimes two events with opposite times have the relation of the exchanged events. [Also for pairs within the tolerance of the light cone, and in anti-de Sitter spacetime.]", "quantifier": "all dimensions, periods, radii, tolerances, symmetries, points, labels, program states and iteration orders", "why_tests_cant": "the symmetries are continuous families of maps, and the points are arbitrary", "anchors": ["spacetimes.py:FlatSpacetime.Causality", "spacetimes.py:deSitterSpacetime.Causality", "spacetimes.py:AntideSitterSpacetime.Causality", "spacetimes.py:BlackHoleSpacetime.Causality", "embeddedcauset.py:EmbeddedCauset.create", "embeddedcauset.py:EmbeddedCauset.relate"]}
{"id": "C123", "title": "The unit of length does not matter", "statement": "If all coordinates and all lengths of the spacetime and region (periods, radii, centre, edges, duration) are multiplied by the same positive number k, nothing changes but this number: with exact comparisons the causality function has the same values and `create` gives the same causal set, in every spacetime; the points sprinkled with the same random numbers are the multiplied points; a point is in the region iff the multiplied point is in the multiplied region; volumes are multiplied by k^Dim, the length scale of a sprinkle by k, its density by k^-Dim. [The causal set is also the same with the tolerance of the code.]", "quantifier": "all positive factors, spacetimes, dimensions, regions, points, random numbers, program states and iteration orders", "why_tests_cant": "the factor and the coordinates are arbitrary real numbers", "anchors": ["spacetimes.py:FlatSpacetime.Causality", "spacetimes.py:deSitterSpacetime.Causality", "spacetimes.py:AntideSitterSpacetime.Causality", "spacetimes.py:BlackHoleSpacetime.Causality", "shapes.py:CoordinateShape.Volume", "sprinkledcauset.py:SprinkledCauset._sprinkle_coords", "sprinkledcauset.py:SprinkledCauset.LengthScale"]}
{"id": "C124", "title": "The coordinate systems of a black hole describe the same black hole", "statement": "Events of a black hole that are given in Schwarzschild coordinates form the same causal set with metric='Schwarzschild' as the same events given in Eddington-Finkelstein coordinates (t + r_S log |r / r_S - 1|, r) with metric='Eddington-Finkelstein': the same events are causally related, in the same direction, inside, outside and across the horizon.", "quantifier": "every Schwarzschild radius, all events off the horizon, all histories of the causet before", "why_tests_cant": "a test compares a few events; the two branches of the causality function order the events by time or by radius, which agree only by an identity between logarithms for all real coordinates", "anchors": ["spacetimes.py:BlackHoleSpacetime.Causality", "spacetimes.py:BlackHoleSpacetime._light_EF", "spacetimes.py:BlackHoleSpacetime._light_S", "embeddedcauset.py:EmbeddedCauset.create"]}
{"id": "C125", "title": "Two-dimensional spacetimes yield 2D orders", "statement": "In Minkowski and de Sitter spacetime with two dimensions (inside the horizon) and on each side of a black hole (off the horizon), in both metrics, one event precedes another exactly if both of its light-cone coordinates are not larger. Hence every causal set that EmbeddedCauset builds from different points of such a spacetime is the 2D order of a permutation, as FromPermutation builds it: its events can be numbered such that event i precedes event j exactly if i < j and P(i) < P(j).", "quantifier": "every spacetime of one spatial dimension without a period except anti-de Sitter spacetime, all parameters, all finite lists of different points, all histories before", "why_tests_cant": "a test can only compare the relations of a few points; that two coordinates realise the order of every list of points follows from identities of hyperbolic functions and logarithms for all real coordinates", "anchors": ["spacetimes.py:FlatSpacetime.Causality", "spacetimes.py:deSitterSpacetime.Causality", "spacetimes.py:BlackHoleSpacetime.Causality", "embeddedcauset.py:EmbeddedCauset.__init__"]}
{"id": "C126", "title": "Spacetimes agree where they overlap", "statement": "The same points have the same causal relations, and so give the same causal set, (1) in a periodic flat spacetime and in Minkowski spacetime, if no two of them are more than half a period apart in a periodic direction, with every tolerance; (2) in Minkowski spacetimes of different dimensions, if the additional coordinates are equal, with exact comparisons, and from three dimensions on with every tolerance; (3) in de Sitter or anti-de Sitter spacetimes of different dimensions, if the additional coordinates are zero, with every tolerance. [(2) from two dimensions with the tolerance of the library.]", "quantifier": "all dimensions, periods, radii, tolerances, points, labels, program states and iteration orders", "why_tests_cant": "the points and dimensions are arbitrary; different functions of the library compute the relations in two, in more, and in periodic dimensions", "anchors": ["spacetimes.py:FlatSpacetime.Causality", "spacetimes.py:deSitterSpacetime.Causality", "spacetimes.py:AntideSitterSpacetime.Causality", "embeddedcauset.py:EmbeddedCauset.create"]}
{"id": "C127", "title": "Moving the region moves the sprinkle", "statement": "Sprinkling, with the same random numbers, into a region with another centre gives the points moved by the difference of the centres; the moved region has the same volume and contains exactly the moved points; and in a spacetime that does not change under the translation the result is the same causal set: the same new events, order, links, intensity, result or exception. [For all shapes.]", "quantifier": "all regions, dimensions, translations, numbers of points, random numbers, program states and iteration orders", "why_tests_cant": "the random numbers, the regions and the translations are arbitrary", "anchors": ["sprinkledcauset.py:SprinkledCauset._sprinkle_coords", "sprinkledcauset.py:SprinkledCauset.sprinkle", "shapes.py:CoordinateShape", "spacetimes.py:FlatSpacetime.Causality"]}
{"id": "C128", "title": "Creating events in several steps, or in another order, gives the same causal set", "statement": "Two programs that create the same points on a new EmbeddedCauset with create, one in a single call and the other in several calls, end with the same causal set: the same number of events, the same labels and coordinates, the same relation a < b, the same PastOf and FutureOf sets and the same links, whatever order Python enumerates its sets in. If the points are created in another order, only the labels differ: there is a one-to-one correspondence of the events that keeps the coordinates and the relation. This holds for every causality function that gives the same answer to 'is x before y' and 'is y after x' on the points (in Minkowski spacetime with any tolerance: points at different times; for every causal order: points no two of which precede each other).", "quantifier": "all causality functions, all lists of points, all ways to split them into calls, all permutations, all set enumeration orders", "why_tests_cant": "a test creates a few fixed points in one or two ways; the claim is about all splittings and all orders of the same points", "anchors": ["embeddedcauset.py: EmbeddedCauset.create, relate", "spacetimes.py: Causality"]}
{"id": "C129", "title": "Creating further events leaves the relations of the existing events unchanged", "statement": "When create is called again on an EmbeddedCauset, all its events stay, with their labels and coordinates, and any two of them are related as before: PastOf and FutureOf an old event only grow by new events. Two old events are linked after the calls exactly if they were linked before and no new event lies causally between them; no link between old events appears.", "quantifier": "all causality functions (links: all causal orders), all histories of create calls, all points, all set enumeration orders", "why_tests_cant": "the histories, the points and the enumeration orders are unbounded; create erases and recomputes all relations and links", "anchors": ["embeddedcauset.py: EmbeddedCauset.create, relate", "causet.py: Causet.link"]}
{"id": "C130", "title": "Powers of the matrices of a causet count intervals and paths", "statement": "Let l list the events of a causet (given, or the default order), P = PastMatrix(l) and L = LinkPastMatrix(l) as integer matrices. For i != j the entry (P^2)[i, j] is IntervalCard(l[j], l[i], includeBoundary=False), and for every k the entry (L^k)[i, j] is the number of paths of k + 1 events that Paths(l[j], l[i], k + 1) yields, whatever has been linked or asked before.", "quantifier": "all consistent states, all causets closed under past and future, all listings, all pairs of events, all exponents", "why_tests_cant": "the states, the listings and the exponents are unbounded", "anchors": ["causet.py: Causet.PastMatrix, LinkPastMatrix, IntervalCard, Paths"]}
{"id": "C131", "title": "Symmetries of permutations are symmetries of their 2D orders", "statement": "For every permutation P of 1..n: Causet.FromPermutation of the inverse permutation is isomorphic to FromPermutation(P); FromPermutation of the reversed list relates exactly the events that correspond to different unrelated events of FromPermutation(P) (causally related and spacelike exchange); and FromPermutation of the reversed complement (n + 1 - x for every number x, in reversed order) is FromPermutation(P) with past and future exchanged; the complement that is not reversed exchanges causally related and spacelike like the reversed list.", "quantifier": "all permutations of all lengths, all consistent states before the calls, all label formats, all set enumeration orders", "why_tests_cant": "there are n! permutations of every length n; a test tries a few", "anchors": ["causet.py: Causet.FromPermutation"]}
{"id": "C132", "title": "Rank, path lengths and interval size bound each other", "statement": "If a <= b, then a.Rank(b) is a number n, the shortest paths from a to b have exactly n + 1 events (and there is one), and every path has at least n + 1 and at most IntervalCard(a, b) events; some path has IntervalCard(a, b) events exactly if the interval is a chain, and then it is the only path. If a <= b is false, the rank is infinite, there is no path, and IntervalCard(a, b) is 0.", "quantifier": "all consistent states (linked or unlinked), all pairs of events, all set enumeration orders", "why_tests_cant": "the three answers come from three different algorithms; a test compares them on a few causets", "anchors": ["causetevent.py: CausetEvent.Rank", "causet.py: Causet.Paths, Causet.IntervalCard, Causet.Interval"]}
{"id": "C133", "title": "Powers of PastMatrix count chains, and the inverse of 1 - P counts all of them", "statement": "For every list of different events with matrix P = PastMatrix: the entry [i, j] of the k-th power of P is the number of chains of k + 1 listed events from event j to event i; the k-th power is 0 exactly if there is no chain of k + 1 listed events, in particular the power to the number of events is 0; 1 - P is invertible over the integers and the entry [i, j] of the inverse is the number of all chains from event j to event i. If the list contains everything between its events, e.g. for all events of a causet, 1 - LinkPastMatrix is invertible too, and the entry [i, j] of the inverse is the number of paths that Paths(e_j, e_i) yields.", "quantifier": "all consistent states (linked or unlinked), all lists of different events, all powers, all set enumeration orders", "why_tests_cant": "a test computes the powers for a few causets; the number of chains grows exponentially", "anchors": ["causet.py: Causet.PastMatrix, Causet.LinkPastMatrix, Causet.Paths"]}
{"id": "C134", "title": "Rank obeys the triangle inequality, longest paths the reversed one", "statement": "For all events a, b, c: Rank(a, c) <= Rank(a, b) + Rank(b, c), and if the right side is finite there is equality exactly if some path that Paths(a, c, 'min') yields contains b; Rank(a, b) is 0 exactly if a is b and 1 exactly if a and b are linked. Paths(a, b, 'timegeo') yields exactly the chains (not only the paths of links) of greatest length from a to b. If a <= b <= c, the longest paths from a to c have at least as many links as those from a to b and from b to c together, with equality exactly if one of them contains b.", "quantifier": "all consistent states (linked or unlinked), all triples of events, all set enumeration orders", "why_tests_cant": "a test checks the inequalities for a few events", "anchors": ["causetevent.py: CausetEvent.Rank", "causet.py: Causet.Paths"]}
