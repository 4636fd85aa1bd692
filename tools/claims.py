c('C01','proved',['C01_reachable_valid','C01_proviso_necessary','C01_refuted_without_proviso'],
  'Proved for every history (also disjoin, merge, Causet.link, add, discard). Without the proviso transitivity fails: proved too.')
c('C02','proved',['C02_constructor_relations'])
c('C03','proved',['C03_link_queries','C03_independent_of_caching'])
c('C04','proved',['C04_trichotomy'])
c('C05','proved',['C05_cardinalities'])
c('C06','partial',['C06_refuted','C06_refuted_witness','C06_actual_partial'],
  'The property is false of the code (bitwise &); refuted, and what the code returns is proved.')
c('C07','proved',['C07_disjoin','C07_disjoin_unlinked'])
c('C08','partial',['C08_refuted','C08_refuted_witness','C08_disjoin_partial','C08_queries','C08_exact_iff','C08_always_iff'],'The property is false of the code when disjoining creates a new link between events with link memory: refuted for every iteration order. What every link query answers after disjoin is proved for every iteration order, with the exact condition for right answers.')
c('C64','proved',['C64_copy'])
c('C09','proved',['C09_causet_closure','C09_causet_of_closed','C09_iteration_independent'])
c('C10','proved',['C10_labels','C10_fromPermutation','C10_not_permutation'])
c('C11','proved',['C11_newChain','C11_newAntichain'])
c('C12','proved',['C12_newFence','C12_newFence_one','C12_newFence_empty','C12_newCrown'])
c('C13','proved',['C13_newSimplex','C13_count','C13_negative'])
c('C19','proved',['C19_card','C19_add_discard','C19_add_discard_unlink'])
c('C20','partial',['C20_operators_partial','C20_refuted'],'All operators but the reflected minus; that one is refuted.')
c('C21','proved',['C21_isChain','C21_isAntichain','C21_isChain_whole','C21_isAntichain_whole','C21_whole_needs_closure'])
c('C23','proved',['C23_pastInfOf','C23_futureInfOf','C23_pastInf','C23_futureInf','C23_closed_agree','C23_bounding','C23_antichains','C23_cards'])
c('C24','proved',['C24_pastOf','C24_futureOf','C24_coneOf','C24_spacelikeTo','C24_iteration_independent'])
c('C25','partial',['C25_refuted','C25_refuted_witness','C25_intersect_partial'],'The property is false of the code; refuted, and the exact condition for a right answer proved.')
c('C26','proved',['C26_interval','C26_interval_open','C26_interval_self','C26_interval_empty','C26_intervalCard'])
c('C63','proved',['C63_find','C63_findAll_findAny'])
c('C17','proved',['C17_merge','C17_merge_closure','C17_merge_disjoint'])
c('C18','partial',['C18_merge_links_partial','C18_merge_disjoint','C18_refuted','C18_queries','C18_exact_iff','C18_always_iff'],'What every link query answers after merge is proved for every iteration order, with the exact condition for right answers; refuted in general.')
c('C22','partial',['C22_isPath_accepts_partial','C22_isPath_whole','C22_isPath_of_chain','C22_isPath_degrees','C22_refuted'],'The "only if" direction is false of the code; refuted. What isPath decides is characterised.')
c('C27','proved',['C27_perimetral','C27_internal','C27_counts'])
c('C28','proved',['C28_centralAntichain','C28_central'])
c('C29','proved',['C29_layerNumbers','C29_sign','C29_strictMono','C29_layers','C29_layer_zero'])
c('C30','proved',['C30_layered','C30_layered_of','C30_needs_convexity'])
c('C35','proved',['C35_disjoint','C35_isDisjoint'])
c('C38','proved',['C38_link','C38_link_exact','C38_linkCount_of','C38_linkCount','C38_outcome','C38_any','C38_needs_closure','C38_unlink'])
c('C39','proved',['C39_general','C39_symmetric','C39_related','C39_spacelike'])
c('C36','proved',['C36_sortedByLabels','C36_sortedByCausality'])
c('C37','proved',['C37_given','C37_default','C37_links','C37_links_default','C37_closure'])
c('C14','proved',['C14_fromPastMatrix','C14_fromFutureMatrix'])
c('C15','partial',['C15_short_loops_partial','C15_refuted','C15_refuted_witness','C15_raise_harmless'],'Exactly the loops of length 1 and 2 are detected; refuted for all longer ones.')
c('C16','partial',['C16_sorted_partial','C16_refuted','C16_exact'],'For causally sorted matrices < is the transitive closure; futures and unsorted matrices are refuted. C16_exact says for every matrix what < and Future are.')
c('C31','proved',['C31_rank','C31_depth'],'For every recursion limit at least the number of events (Python: its recursion limit).')
c('C32','proved',['C32_ranks_any','C32_rankNumbers','C32_ranks','C32_sign','C32_le_layer'])
c('C33','proved',['C33_paths','C33_all','C33_errors'])
c('C34','proved',['C34_min','C34_max','C34_nonempty'])
c('C40','proved',['C40_distanceMatrix','C40_iteration_order','C40_values','C40_chained','C40_graph_distance','C40_one_step','C40_isolated'])
c('C41','proved',['C41_antipaths','C41_no_distance','C41_trivial','C41_shortest'],'Soundness for every matrix; exactly all shortest paths for its own distances on a connected antichain.')
c('C66','partial',['C66_ends_partial','C66_intersection_refuted','C66_isolated_refuted'],'Refuted for intersection matrices and isolated antichains.')
c('C42','proved',['C42_relate','C42_causal_order','C42_distinct','C42_create_any','C42_create','C42_history'],'For every causality function and iteration order; C42_causal_order/C42_distinct under IsCausalOrder, which C43/C44 establish for the spacetimes.')
c('C46','proved',['C46_create','C46_create_ok','C46_labels_distinct','C46_labels_after_discard_refuted'],'The last theorem shows that create-only histories are needed for distinct labels.')
c('C61','partial',['C61_flags_partial','C61_new_event_refuted'],'Refuted for new events; every other statement proved for all histories.')
c('C65','proved',['C65_relabel','argsort_exists'])
c('C43','partial',['C43_directions','C43_order','C43_minkowski','C43_causal_order','C43_general_position_partial','C43_tolerance_refuted','C43_create_refuted','C43_period_refuted'],'Exact for tolerance 0, and with tolerance in general position; refuted with the coded tolerance and for points further apart than the period.')
c('C44','partial',['C44_deSitter','C44_deSitter_order','C44_deSitter_time','C44_EF','C44_EF_order','C44_Schwarzschild','C44_Schwarzschild_order','C44_EF_horizon','C44_Schwarzschild_horizon','C44_horizon_order','C44_horizon_refuted','C44_AdS_directions_partial','C44_AdS_refuted'],'Anti-de Sitter is refuted (not transitive, not time ordered); de Sitter and black holes proved, with the values -inf, inf and nan on the horizon. Refuted: two points on the horizon of a black hole are never related (Eddington-Finkelstein).')
c('C45','proved',['C45_fromPermutation','C45_needs_cell_size'])
c('C67','partial',['C67_flat_init','C67_repr_refuted','C67_repr_partial'],'repr is refuted for non-periodic spacetimes.')

c('C49','partial',['C49_fractions','C49_exact','C49_exact_int','C49_raises','C49_agree_partial','C49_agree_iff','C49_agree_refuted'],'Agreement refuted from 55109 on (int64 overflow), proved exactly up to there.')
c('C50','partial',['C50_finite_partial','C50_refuted'],'Refuted: the int64 powers overflow to 0 for some n, division by zero.')
c('C51','partial',['C51_result','C51_interval','C51_residual','C51_documented_interval_refuted'],'The documented interval is refuted; the interval the code keeps is proved.')
c('C68','proved',['C68_expansion_error'])
c('C52','proved',['C52_init'])

c('C53','partial',['C53_volume','C53_documented_cylinder_refuted','C53_flat_cylinder_refuted'],'Equal to the Lebesgue measure of the region that the code describes, for all shapes and dimensions. Refuted: the documented hollow cylinder (hollow also along the duration), and positivity for the hollow cylinder in one dimension.')
c('C54','proved',['C54_limits','C54_maxEdgeHalf','C54_cylinder_time_only'])
c('C55','proved',['C55_ellipse','C55_circle','C55_rectangle','C55_bicone','C55_cylinderCut','C55_negative_hollow_refuted'],'Also the orientation. The last theorem shows that hollow >= 0 is needed.')
c('C69','partial',['C69_ball','C69_cuboid','C69_cuboid_mesh','C69_cube','C69_cylinder_partial','C69_cone_partial','C69_cylinder_meridian','C69_cone_meridian','C69_cylinder_refuted','C69_cone_refuted'],'Cylinders and cones along the axes 0 and 1 are refuted: they are centred at the rotated centre.')
c('C70','partial',['C70_plot3_partial','C70_plot2_partial','C70_bicone_refuted','C70_cylinder_refuted'],'Refuted if time is the first (3 dimensions: or second) plotted dimension.')
c('C47','partial',['C47_intensity_partial','C47_new','C47_intensify','C47_discard','C47_refuted_add','C47_refuted_sprinkle'],'Intensity = Card for all histories in which no call raises; refuted after a call that raises (the causet or the intensity is updated before the exception).')
c('C48','partial',['C48_in_region_partial','C48_bicone_uninitialised','C48_bicone_refuted','C48_cylinder_1d','C48_negative','C48_cuboid_onto'],'Proved for cube, cuboid, ball, cylinder (dimension at least 2). Refuted for the bicone: uninitialised memory is returned.')
c('C71','partial',['C71_sprinkled','C71_embedded','C71_embedded_refuted'],'EmbeddedCauset.LengthScale is the root of the density, not its inverse.')
c('C72','proved',['C72_new','C72_sprinkle','C72_intensify','C72_history'],'Shapes other than the bicone; normal vectors drawn are not zero.')
c('C56','proved',['C56_getColor','C56_dict','C56_list','C56_idempotent','C56_global','C56_defaults','C56_setDefaultColors','C56_dict_failure'])
c('C73','partial',['C73_hex_partial','C73_refuted'],'One colour is invalid.')
c('C57','proved',['C57_pairs','C57_count','C57_targets','C57_static','C57_dynamic','C57_repeated_refuted'],'A list that repeats an event raises IndexError.')
c('C58','proved',['C58_at_zero','C58_wrong_side','C58_linear','C58_exponential','C58_intensity','C58_names','C58_zero_depth'])
c('C74','partial',['C74_half_time_refuted','C74_half_time_partial','C74_intensity_refuted'],'The documentation disagrees with the code.')
c('C75','proved',['C75_visible','C75_drawn','C75_geometry','C75_artist'])
c('C76','partial',['C76_points','C76_order','C76_markers','C76_tolerance_refuted','C76_on_link'],'Order proved for events exactly on the segment, refuted within the tolerance.')
c('C77','partial',['C77_two','C77_three','C77_user','C77_automatic_refuted','C77_kept'],'Proved for the keyword argument shape; the automatic shape of an EmbeddedCauset has no effect.')
c('C78','partial',['C78_iff','C78_documented_refuted'],'Exact condition proved; two documented uses never return.')
c('C79','partial',['C79_errors','C79_parameters','C79_documented','C79_defaults','C79_linkgap_refuted','C79_linkgap_partial'],'linkgapsize is ignored with links=True.')
c('C59','partial',['C59_refuted','C59_default','C59_examples'],'The list of numbers is always too short; exact outcome proved for every set.')
c('C60','partial',['C60_refuted','C60_nothing_new','C60_example'],'Outcome for every start; open starts never return a fence.')
c('C80','partial',['C80_antichainPermutations','C80_layeredPermutations','C80_singleton_refuted','C80_layeredPermutations_refuted'],'Single events have no permutation.')
c('C62','proved',['C62_roundtrip','C62_saves','C62_small_refuted'],'Round trip for causets of at least two events; the statement excludes fewer, for which reading raises (C62_small_refuted).')
c('C81','partial',['C81_accepts','C81_rejects_partial','C81_no_dimension','C81_init','C81_order','C81_rows_refuted'],'Rows of a list are not checked.')
c('C82','partial',['C82_new_partial','C82_rejects','C82_default_refuted'],'Default region is not sprinkled.')
c('C83','partial',['C83_flat_time','C83_minkowski_time','C83_flat_space','C83_flat_3d_partial','C83_flat_3d_refuted'],'3-D cones are misplaced unless the time axis is the last one.')
c('C84','partial',['C84_deSitter_2d','C84_deSitter_space','C84_deSitter_3d','C84_deSitter_3_time','C84_deSitter_time','C84_offplane_refuted'],'Wrong for events off the plotted plane in 4 or more dimensions.')
c('C85','proved',['C85_derivatives','C85_EF','C85_S_inside_future','C85_S_inside_past','C85_S_outside','C85_not_implemented'],"The end of a ray is where Newton's method stops (ApproxRoot).")
c('C86','partial',['C86_positions','C86_other_length','C86_out_of_range','C86_order','C86_hasse','C86_documented_refuted'],'The code uses the inverse of the documented permutation.')
c('C87','partial',['C87_parameter','C87_parameter_values','C87_str','C87_repr_refuted'],'repr of a shape always raises.')
c('C88','partial',['C88_shape_after','C88_unchanged_partial','C88_volume_memory','C88_volume_late','C88_refuted'],'Plotting a hollow bicone in three dimensions with time shrinks it.')
c('C89','proved',['C89_order','C89_links','C89_questions','C89_constructors','C89_sprinkled'],'Programs do not contain copy and matrices that are not orders.')
c('C90','proved',['C90_cones','C90_plot','C90_range'],'The geometry of the cones is C83 to C85.')
c('C91','partial',['C91_order_queries','C91_components','C91_link_queries','C91_changes','C91_central_refuted','C91_disjoin_refuted'],'False for CentralAntichain and for link queries after disjoin; generator orders may differ (lists of paths and components equal up to order).')
c('C92','partial',['C92_event','C92_merge','C92_merge_once','C92_merge_past_once','C92_merge_refuted','C92_add_discard','C92_discard_self','Objs.C92_discard_self_objects','C92_antipaths','C92_antipaths_once'],'False for merge and Antipaths with iterators and for discard of a causet from itself (exact outcomes proved).')
c('C93','proved',['C93_constructors', 'C93_matrices'],'')
c('C94','partial',['C94_unchanged', 'C94_order', 'C94_link_refuted', 'C94_relate_refuted'],'False for Causet.link (links) and relate (order).')
c('C95','proved',['Objs.C95_arguments_kept', 'Objs.C95_add_discard', 'Objs.C95_causet_own_set', 'Objs.demo_sets'],'demo_sets: a set that has been an argument, in a program with events.')
c('C96','proved',['Objs.C96_by_value', 'Objs.C96_programs', 'Objs.demo_prog', 'Objs.demo_aliased'],'For merge, __init__ and the cone functions the arguments may be sets of events; a causet discarded from itself is excluded (C92).')
c('C97','partial',['Objs.C97_snapshot', 'Objs.C97_live', 'Objs.C97_kept_refuted', 'Objs.C97_own_refuted', 'Objs.C97_disjoin_stale'],'False for Past and Future, which return the internal set objects; exact statements proved for all others and for when Past and Future stay live.')
c('C98','proved',['C98_causality', 'C98_embedded', 'C98_antisymm'],'The relation of anti-de Sitter spacetime is no order (C44), so points on which it is transitive are required there; the tolerance (C43, C44) is excluded by the hypothesis hgen, which holds for eps = 0 and for points in general position.')
c('C99','partial',['C99_names', 'C99_metric_refuted'],"False for the name 'Schwarzschild'; names and dimensions proved for all.")
c('C100','partial',['C100_outcome', 'C100_reject_refuted', 'C100_inside_refuted', 'C100_reject_partial'],'False: lists like [1, 1] and [0, 1] are accepted; the exact outcome is proved for every list.')
c('C101','partial',['C101_coords_partial', 'C101_probability', 'C101_almost_surely', 'C101_distinct', 'C101_sprinkle_partial', 'C101_order_partial', 'C101_bicone_refuted'],'False for bicones. Uniform with respect to the coordinates, whatever the spacetime (for de Sitter and black hole metrics that is not the spacetime volume). Real arithmetic.')
c('C102','partial',['C102_intensify_partial', 'C102_new_partial', 'C102_twice_partial', 'C102_bicone_refuted'],'False for bicones, proved for all other shapes (cylinders of dimension at least 2).')
c('C103','partial',['C103_calls', 'C103_kwargs', 'C103_first', 'C103_fresh', 'C103_time', 'C103_time_ends', 'C103_int', 'C103_handles', 'C103_stale', 'C103_stale_refuted', 'C103_dict_refuted'],'The two refuted sentences are in brackets; the first part is proved without restriction. An int as time raises TypeError when the time is needed (C103_int). `time=[t]` given to `plot` (not to the plotting function) and blending of matplotlib artists are not modelled.')
c('C104','partial',['C104_ieee', 'C104_directions', 'C104_curved', 'C104_2D', 'C104_accuracy', 'C104_exact', 'C104_create', 'C104_numbers', 'C104_large_refuted', 'C104_deSitter', 'C104_antiDeSitter', 'C104_deSitter_numbers', 'C104_BH_directions', 'C104_BH_infall', 'C104_BH_accuracy', 'C104_BH_sides', 'C104_BH_refuted'],'The refuted sentences are in brackets. Overflow to inf, NaN and points exactly on the horizon of a black hole: C116.')
c('C105','proved',['C105_isolated', 'C105_results', 'C105_two_causets', 'C105_case'],'No validity hypothesis on the state or the calls. C105_two_causets starts in a state of C89. Questions without effects on events (Layers, Intervals, ...) are functions of the state and need no theorem here.')
c('C106','partial',['C106_prefix', 'C106_all', 'C106_contents', 'C106_empty_refuted', 'C106_permutation_refuted', 'C106_list_refuted', 'C106_case'],'The enumeration is proved in full. Refuted: the lists are no permutations of the layers (a crown gives two of three events, exDouble an event twice); list(layeredPermutations(C)) contains copies of the last combination, because the same list object is yielded again and again; for the empty event set NameError is raised.')
c('C107','partial',['C107_results', 'C107_minimal', 'C107_exceptions', 'C107_permutation_partial', 'C107_refuted', 'C107_least_refuted', 'C107_degree', 'C107_numbers_refuted', 'C107_case'],'The permutation property is proved if no list of a layer repeats an event, and refuted without (exDouble: event 3 twice, event 4 missing). For sets with a least event RuntimeError is raised. The number that is minimised is the number of extended causal relations (C107_degree). The numbers need not be a permutation of 1, …, n (C107_numbers_refuted: 2, 7, 1, 5, 2, 4, 5). Missing: when the two lists together represent the (extended) order.')
c('C108','partial',['C108_small', 'C108_two', 'C108_never', 'C108_past', 'C108_refuted', 'C108_case'],'The behaviour on antichains is characterised completely; the promise of the docstring holds only for at most one event and is refuted for every antichain with two or more.')
c('C109','proved',['C109_events', 'C109_sets', 'C109_layers', 'C109_distances', 'C109_components', 'C109_causets', 'C109_links', 'C109_ranks', 'C109_paths', 'C109_matrices', 'C109_local', 'C109_realises', 'C109_central', 'C109_case'],'CentralAntichain depends on the iteration order (C91): the answers correspond if the sets are enumerated correspondingly. The functions that sort by labels are not included.')
c('C110','partial',['C110_events', 'C110_sets', 'C110_layers_partial', 'C110_distances', 'C110_components', 'C110_links', 'C110_ranks_partial', 'C110_paths', 'C110_matrices', 'C110_central', 'C110_realises', 'C110_fromMatrix', 'C110_case', 'C110_refuted', 'C110_refuted_ranks'],'Refuted for Layers and Ranks with a bound 0 of a set that is not an antichain: layer 0 and rank 0 are then always the future end of the set (C110_refuted). Everything else is proved. CentralAntichain if the sets are enumerated correspondingly.')
c('C111','proved',['C111_steps', 'C111_extremal', 'C111_errors', 'C111_eager', 'C111_antipaths', 'C111_links', 'C111_new', 'C111_case', 'C111_proviso'],'C111_proviso shows that the proviso on the interval is needed: an event put between a and b during the loop makes later values stale. A distance matrix given to Antipaths is assumed not to be written to.')
c('C112','proved',['C112_unchanged', 'C112_changes', 'C112_mistake', 'C112_case'],'The set iterator of CPython is modelled by its size check (Objects/setobject.c, setiter_iternext); a replacement that preserves the number of events is not noticed by CPython and not modelled faithfully.')
c('C113','partial',['C113_minkowski', 'C113_line', 'C113_tolerance', 'C113_default_minkowski', 'C113_default_periodic', 'C113_deSitter', 'C113_default_deSitter', 'C113_antiDeSitter_refuted', 'C113_default_refuted', 'C113_EF', 'C113_Schwarzschild_refuted', 'C113_default_blackHole'],'Refuted as stated, decided completely: in Minkowski spacetime of 2 or more dimensions exactly the bicones that are not hollow are causally convex, in particular the default diamond (with the tolerance: up to its root). The default cube of periodic flat spacetimes ignores the periods: it is convex (up to shifts) iff every direction has a period of at most 1, and covers no point twice iff no period is below 1, so it fits only if all periods are 1. The default cylinder is convex for de Sitter iff alpha <= 1 (any cylinder: iff it reaches the horizon), for black holes iff Eddington-Finkelstein coordinates with r_S >= 1 (not for the default 0.5), never for anti-de Sitter and the base class.')
c('C114','partial',['C114_str', 'C114_str_zero_refuted', 'C114_event', 'C114_causet', 'C114_complete', 'C114_unlabelled_refuted', 'C114_strings_refuted'],'Proved: the contents of the texts, no observable change, and that the text of a causal set with different labels that are nonzero integers or nonempty strings without quotes determines it (order, labels and coordinates). Refuted in general: the label 0 and the empty label are not shown (`#Event`), quotes in labels are not escaped (one event can print like two), and the text of unlabelled causal sets does not determine them.')
c('C115','partial',['C115_ieee', 'C115_directions', 'C115_2D', 'C115_accuracy', 'C115_exact', 'C115_create', 'C115_tolerance', 'C115_box', 'C115_ball', 'C115_cylinder', 'C115_refuted', 'C115_sprinkle_refuted', 'C115_box_refuted'],'The refuted sentences are in brackets, with witnesses. Periods: C119, curved spacetimes: C120. `C115_ball` assumes that the norm of the normal numbers is between 2^-50 and 2^50 (they are random). Missing: overflow. That NumPy 1 computes `0 + np.float32` and `np.float32 - float` in float64 and NumPy 2 in float32 is an assumption about NumPy (both are covered).')
c('C116','partial',['C116_directions', 'C116_nan', 'C116_agree', 'C116_infinite_time', 'C116_infinite_space', 'C116_2D', 'C116_curved_directions', 'C116_curved_nan', 'C116_deSitter_agree', 'C116_antiDeSitter_agree', 'C116_BH_directions', 'C116_BH_nan', 'C116_BH_agree', 'C116_BH_horizon_EF', 'C116_BH_horizon_Schwarzschild', 'C116_deSitter_overflow', 'C116_antiDeSitter_infinite', 'C116_overflow_refuted', 'C116_deSitter_refuted'],'The refuted sentences are in brackets, with witnesses. Missing: points within 2^-400 of the horizon but not on it (with moderate radii no binary64 number is that close), signed zeros (they have no effect, see the head of Model/Ieee.lean).')
c('C117','partial',['C117_errors', 'C117_fit', 'C117_flat_values', 'C117_curved_values', 'C117_curved_broadcast', 'C117_curved_refuted', 'C117_first_values', 'C117_relate_ok', 'C117_relate_raises', 'C117_new', 'C117_unembedded', 'C117_dimension_refuted', 'C117_lost_refuted', 'C117_case'],'The refuted sentences are in brackets, with witnesses. In curved spacetimes a single space coordinate is repeated for the differences only, so that the order is not that of any points (C117_curved_refuted).')
c('C118','partial',['C118_roundtrip', 'C118_exact', 'C118_str', 'C118_fails_refuted', 'C118_case'],'The refuted sentence is in brackets; which texts evaluate and to what is decided completely (C118_exact). Texts are modelled as lists of Python tokens; that the characters are split into these tokens and numbers are read as they were printed is assumed of Python. Parameters are int or float, not NumPy scalars.')
c('C119','partial',['C119_ieee', 'C119_directions', 'C119_accuracy', 'C119_exact', 'C119_create', 'C119_numpy2', 'C119_numpy1', 'C119_wide_period', 'C119_refuted'],'The refuted sentence is in brackets, with a witness. All else is proved. The promotion rules (a Python number counts as float64 with NumPy 1 and as the type of the NumPy scalar with NumPy 2) are assumptions about NumPy. No overflow.')
c('C120','proved',['C120_deSitter', 'C120_antiDeSitter', 'C120_deSitter_numbers', 'C120_exact', 'C120_create', 'C120_directions', 'C120_BH_accuracy', 'C120_BH_directions', 'C120_BH_infall', 'C120_BH_sides'],'The promotion rules of NumPy are assumptions, both are covered. The mathematical library is assumed to be accurate to 2^-52 (relative, plus absolute), as in C104, and the logarithm of NumPy to 2^-23. No overflow.')
c('C121','partial',['C121_same', 'C121_same_methods', 'C121_zero', 'C121_diagonal', 'C121_lift', 'C121_error', 'C121_cylinder_1d', 'C121_failed_state', 'C121_refuted'],'The sentence in brackets is refuted (C121_refuted). All the others are proved. As in C48, not all normal draws of a row are 0 (the code then divides by zero), and bicones leave the memory uninitialised. No overflow of float32.')
c('C122','partial',['C122_create', 'C122_Minkowski', 'C122_boost', 'C122_translate', 'C122_space', 'C122_flat', 'C122_curved_rotations', 'C122_deSitter_time', 'C122_antiDeSitter_time', 'C122_blackHole', 'C122_reversal', 'C122_reversal_refuted', 'C122_boost_refuted', 'C122_antiDeSitter_refuted'],'The sentence in brackets is refuted: a boost reverses the relation of two points within the tolerance (C122_boost_refuted), and in anti-de Sitter spacetime a translation of time by pi times the radius reverses all relations (C122_antiDeSitter_time, C122_antiDeSitter_refuted). All else is proved, over real numbers (rounding: C104, C115). Reversal of time is proved for flat and (anti-)de Sitter spacetimes; C122_reversal_refuted shows that it is no symmetry of black holes, as physics has it.')
c('C123','partial',['C123_causality', 'C123_create', 'C123_region', 'C123_sprinkle', 'C123_volume', 'C123_lengthScale', 'C123_refuted', 'C123_unit_refuted'],'The sentence in brackets is refuted: the tolerance is the absolute number 1e-12, so that in large enough units every two points of Minkowski spacetime are causally related (C123_refuted), for example points at unit distance in a unit ten million times as long (C123_unit_refuted). All else is proved, over real numbers.')
c('C124','proved',['C124_metrics', 'C124_create'],'Exact real arithmetic; events on the horizon have no Schwarzschild time.')
c('C125','partial',['C125_deSitter', 'C125_EddingtonFinkelstein', 'C125_Schwarzschild', 'C125_lightCones', 'C125_embedded', 'C125_refuted'],'Proved with exact comparisons, or for points where the tolerance makes no difference. Refuted with the tolerance of the library: create makes a causal set of three points of Minkowski spacetime whose order is no product of two coordinates (it is not transitive).')
c('C126','partial',['C126_periodic', 'C126_periodic_sharp', 'C126_Minkowski', 'C126_curved', 'C126_create', 'C126_refuted'],'The sentence in brackets is refuted (C126_refuted): the tolerance is added to the distance in two dimensions but to its square in three, so that two points of a plane 1e-6 apart at the same time are related in three dimensions only. Half a period is sharp (C126_periodic_sharp).')
c('C127','partial',['C127_region', 'C127_volume', 'C127_sprinkle', 'C127_causet', 'C127_flat', 'C127_refuted'],'Proved for balls, cylinders, cubes and cuboids (regions and volumes for all shapes); refuted for bicones, for which the code computes no points (C48). Real arithmetic.')
c('C128','proved',['C128_state', 'C128_steps', 'C128_order', 'C128_agree', 'C128_links', 'C128_flat'],'Points at the same place or, with a tolerance, at equal times are outside the hypothesis: their relation depends on the enumeration order of the set of events.')
c('C129','proved',['C129_more', 'C129_links'],'Points no two of which precede each other (for tolerances: for which the two answers of the causality function agree), as in C128.')
c('C130','proved',['C130_intervals', 'C130_count', 'C130_paths', 'C130_causet', 'C130_default'],'Specification: natMatrix is astype(int), the powers are those of Mathlib. The default order needs labels that can be sorted, as in C37.')
c('C131','proved',['C131_inverse', 'C131_reverse', 'C131_dual', 'C131_complement'],'The correspondence of the events is a bijection of the two event sets; nothing is said about the labels.')
c('C132','proved',['C132_bounds', 'C132_unrelated', 'C132_chain'],'Rank needs a recursion limit of at least the number of events (as in C31).')
c('C133','proved',['C133_powers', 'C133_zero', 'C133_nilpotent', 'C133_inverse', 'C133_paths', 'C133_causet'],'The powers and the inverse are those of the integer matrix (M.astype(int)), in exact arithmetic. The inverse is the sum over paths that discrete propagators on causal sets are computed with.')
c('C134','proved',['C134_rank', 'C134_geodesics', 'C134_longest'],'Rank needs a recursion limit of at least the number of events (as in C31).')
