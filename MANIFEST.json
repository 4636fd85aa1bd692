{
 "claims": [
  {
   "property": "C01",
   "status": "proved",
   "theorems": [
    "Causets.C01_reachable_valid",
    "Causets.C01_proviso_necessary",
    "Causets.C01_refuted_without_proviso"
   ],
   "note": "Proved for every history (also disjoin, merge, Causet.link, add, discard). Without the proviso transitivity fails: proved too."
  },
  {
   "property": "C02",
   "status": "proved",
   "theorems": [
    "Causets.C02_constructor_relations"
   ],
   "note": ""
  },
  {
   "property": "C03",
   "status": "proved",
   "theorems": [
    "Causets.C03_link_queries",
    "Causets.C03_independent_of_caching"
   ],
   "note": ""
  },
  {
   "property": "C04",
   "status": "proved",
   "theorems": [
    "Causets.C04_trichotomy"
   ],
   "note": ""
  },
  {
   "property": "C05",
   "status": "proved",
   "theorems": [
    "Causets.C05_cardinalities"
   ],
   "note": ""
  },
  {
   "property": "C06",
   "status": "partial",
   "theorems": [
    "Causets.C06_refuted",
    "Causets.C06_refuted_witness",
    "Causets.C06_actual_partial"
   ],
   "note": "The property is false of the code (bitwise &); refuted, and what the code returns is proved."
  },
  {
   "property": "C07",
   "status": "proved",
   "theorems": [
    "Causets.C07_disjoin",
    "Causets.C07_disjoin_unlinked"
   ],
   "note": ""
  },
  {
   "property": "C08",
   "status": "partial",
   "theorems": [
    "Causets.C08_refuted",
    "Causets.C08_refuted_witness",
    "Causets.C08_disjoin_partial",
    "Causets.C08_queries",
    "Causets.C08_exact_iff",
    "Causets.C08_always_iff"
   ],
   "note": "The property is false of the code when disjoining creates a new link between events with link memory: refuted for every iteration order. What every link query answers after disjoin is proved for every iteration order, with the exact condition for right answers."
  },
  {
   "property": "C09",
   "status": "proved",
   "theorems": [
    "Causets.C09_causet_closure",
    "Causets.C09_causet_of_closed",
    "Causets.C09_iteration_independent"
   ],
   "note": ""
  },
  {
   "property": "C10",
   "status": "proved",
   "theorems": [
    "Causets.C10_labels",
    "Causets.C10_fromPermutation",
    "Causets.C10_not_permutation"
   ],
   "note": ""
  },
  {
   "property": "C11",
   "status": "proved",
   "theorems": [
    "Causets.C11_newChain",
    "Causets.C11_newAntichain"
   ],
   "note": ""
  },
  {
   "property": "C12",
   "status": "proved",
   "theorems": [
    "Causets.C12_newFence",
    "Causets.C12_newFence_one",
    "Causets.C12_newFence_empty",
    "Causets.C12_newCrown"
   ],
   "note": ""
  },
  {
   "property": "C13",
   "status": "proved",
   "theorems": [
    "Causets.C13_newSimplex",
    "Causets.C13_count",
    "Causets.C13_negative"
   ],
   "note": ""
  },
  {
   "property": "C14",
   "status": "proved",
   "theorems": [
    "Causets.C14_fromPastMatrix",
    "Causets.C14_fromFutureMatrix"
   ],
   "note": ""
  },
  {
   "property": "C15",
   "status": "partial",
   "theorems": [
    "Causets.C15_short_loops_partial",
    "Causets.C15_refuted",
    "Causets.C15_refuted_witness",
    "Causets.C15_raise_harmless"
   ],
   "note": "Exactly the loops of length 1 and 2 are detected; refuted for all longer ones."
  },
  {
   "property": "C16",
   "status": "partial",
   "theorems": [
    "Causets.C16_sorted_partial",
    "Causets.C16_refuted",
    "Causets.C16_exact"
   ],
   "note": "For causally sorted matrices < is the transitive closure; futures and unsorted matrices are refuted. C16_exact says for every matrix what < and Future are."
  },
  {
   "property": "C17",
   "status": "proved",
   "theorems": [
    "Causets.C17_merge",
    "Causets.C17_merge_closure",
    "Causets.C17_merge_disjoint"
   ],
   "note": ""
  },
  {
   "property": "C18",
   "status": "partial",
   "theorems": [
    "Causets.C18_merge_links_partial",
    "Causets.C18_merge_disjoint",
    "Causets.C18_refuted",
    "Causets.C18_queries",
    "Causets.C18_exact_iff",
    "Causets.C18_always_iff"
   ],
   "note": "What every link query answers after merge is proved for every iteration order, with the exact condition for right answers; refuted in general."
  },
  {
   "property": "C19",
   "status": "proved",
   "theorems": [
    "Causets.C19_card",
    "Causets.C19_add_discard",
    "Causets.C19_add_discard_unlink"
   ],
   "note": ""
  },
  {
   "property": "C20",
   "status": "partial",
   "theorems": [
    "Causets.C20_operators_partial",
    "Causets.C20_refuted"
   ],
   "note": "All operators but the reflected minus; that one is refuted."
  },
  {
   "property": "C21",
   "status": "proved",
   "theorems": [
    "Causets.C21_isChain",
    "Causets.C21_isAntichain",
    "Causets.C21_isChain_whole",
    "Causets.C21_isAntichain_whole",
    "Causets.C21_whole_needs_closure"
   ],
   "note": ""
  },
  {
   "property": "C22",
   "status": "partial",
   "theorems": [
    "Causets.C22_isPath_accepts_partial",
    "Causets.C22_isPath_whole",
    "Causets.C22_isPath_of_chain",
    "Causets.C22_isPath_degrees",
    "Causets.C22_refuted"
   ],
   "note": "The \"only if\" direction is false of the code; refuted. What isPath decides is characterised."
  },
  {
   "property": "C23",
   "status": "proved",
   "theorems": [
    "Causets.C23_pastInfOf",
    "Causets.C23_futureInfOf",
    "Causets.C23_pastInf",
    "Causets.C23_futureInf",
    "Causets.C23_closed_agree",
    "Causets.C23_bounding",
    "Causets.C23_antichains",
    "Causets.C23_cards"
   ],
   "note": ""
  },
  {
   "property": "C24",
   "status": "proved",
   "theorems": [
    "Causets.C24_pastOf",
    "Causets.C24_futureOf",
    "Causets.C24_coneOf",
    "Causets.C24_spacelikeTo",
    "Causets.C24_iteration_independent"
   ],
   "note": ""
  },
  {
   "property": "C25",
   "status": "partial",
   "theorems": [
    "Causets.C25_refuted",
    "Causets.C25_refuted_witness",
    "Causets.C25_intersect_partial"
   ],
   "note": "The property is false of the code; refuted, and the exact condition for a right answer proved."
  },
  {
   "property": "C26",
   "status": "proved",
   "theorems": [
    "Causets.C26_interval",
    "Causets.C26_interval_open",
    "Causets.C26_interval_self",
    "Causets.C26_interval_empty",
    "Causets.C26_intervalCard"
   ],
   "note": ""
  },
  {
   "property": "C27",
   "status": "proved",
   "theorems": [
    "Causets.C27_perimetral",
    "Causets.C27_internal",
    "Causets.C27_counts"
   ],
   "note": ""
  },
  {
   "property": "C28",
   "status": "proved",
   "theorems": [
    "Causets.C28_centralAntichain",
    "Causets.C28_central"
   ],
   "note": ""
  },
  {
   "property": "C29",
   "status": "proved",
   "theorems": [
    "Causets.C29_layerNumbers",
    "Causets.C29_sign",
    "Causets.C29_strictMono",
    "Causets.C29_layers",
    "Causets.C29_layer_zero"
   ],
   "note": ""
  },
  {
   "property": "C30",
   "status": "proved",
   "theorems": [
    "Causets.C30_layered",
    "Causets.C30_layered_of",
    "Causets.C30_needs_convexity"
   ],
   "note": ""
  },
  {
   "property": "C31",
   "status": "proved",
   "theorems": [
    "Causets.C31_rank",
    "Causets.C31_depth"
   ],
   "note": "For every recursion limit at least the number of events (Python: its recursion limit)."
  },
  {
   "property": "C32",
   "status": "proved",
   "theorems": [
    "Causets.C32_ranks_any",
    "Causets.C32_rankNumbers",
    "Causets.C32_ranks",
    "Causets.C32_sign",
    "Causets.C32_le_layer"
   ],
   "note": ""
  },
  {
   "property": "C33",
   "status": "proved",
   "theorems": [
    "Causets.C33_paths",
    "Causets.C33_all",
    "Causets.C33_errors"
   ],
   "note": ""
  },
  {
   "property": "C34",
   "status": "proved",
   "theorems": [
    "Causets.C34_min",
    "Causets.C34_max",
    "Causets.C34_nonempty"
   ],
   "note": ""
  },
  {
   "property": "C35",
   "status": "proved",
   "theorems": [
    "Causets.C35_disjoint",
    "Causets.C35_isDisjoint"
   ],
   "note": ""
  },
  {
   "property": "C36",
   "status": "proved",
   "theorems": [
    "Causets.C36_sortedByLabels",
    "Causets.C36_sortedByCausality"
   ],
   "note": ""
  },
  {
   "property": "C37",
   "status": "proved",
   "theorems": [
    "Causets.C37_given",
    "Causets.C37_default",
    "Causets.C37_links",
    "Causets.C37_links_default",
    "Causets.C37_closure"
   ],
   "note": ""
  },
  {
   "property": "C38",
   "status": "proved",
   "theorems": [
    "Causets.C38_link",
    "Causets.C38_link_exact",
    "Causets.C38_linkCount_of",
    "Causets.C38_linkCount",
    "Causets.C38_outcome",
    "Causets.C38_any",
    "Causets.C38_needs_closure",
    "Causets.C38_unlink"
   ],
   "note": ""
  },
  {
   "property": "C39",
   "status": "proved",
   "theorems": [
    "Causets.C39_general",
    "Causets.C39_symmetric",
    "Causets.C39_related",
    "Causets.C39_spacelike"
   ],
   "note": ""
  },
  {
   "property": "C40",
   "status": "proved",
   "theorems": [
    "Causets.C40_distanceMatrix",
    "Causets.C40_iteration_order",
    "Causets.C40_values",
    "Causets.C40_chained",
    "Causets.C40_graph_distance",
    "Causets.C40_one_step",
    "Causets.C40_isolated"
   ],
   "note": ""
  },
  {
   "property": "C41",
   "status": "proved",
   "theorems": [
    "Causets.C41_antipaths",
    "Causets.C41_no_distance",
    "Causets.C41_trivial",
    "Causets.C41_shortest"
   ],
   "note": "Soundness for every matrix; exactly all shortest paths for its own distances on a connected antichain."
  },
  {
   "property": "C42",
   "status": "proved",
   "theorems": [
    "Causets.C42_relate",
    "Causets.C42_causal_order",
    "Causets.C42_distinct",
    "Causets.C42_create_any",
    "Causets.C42_create",
    "Causets.C42_history"
   ],
   "note": "For every causality function and iteration order; C42_causal_order/C42_distinct under IsCausalOrder, which C43/C44 establish for the spacetimes."
  },
  {
   "property": "C43",
   "status": "partial",
   "theorems": [
    "Causets.C43_directions",
    "Causets.C43_order",
    "Causets.C43_minkowski",
    "Causets.C43_causal_order",
    "Causets.C43_general_position_partial",
    "Causets.C43_tolerance_refuted",
    "Causets.C43_create_refuted",
    "Causets.C43_period_refuted"
   ],
   "note": "Exact for tolerance 0, and with tolerance in general position; refuted with the coded tolerance and for points further apart than the period."
  },
  {
   "property": "C44",
   "status": "partial",
   "theorems": [
    "Causets.C44_deSitter",
    "Causets.C44_deSitter_order",
    "Causets.C44_deSitter_time",
    "Causets.C44_EF",
    "Causets.C44_EF_order",
    "Causets.C44_Schwarzschild",
    "Causets.C44_Schwarzschild_order",
    "Causets.C44_EF_horizon",
    "Causets.C44_Schwarzschild_horizon",
    "Causets.C44_horizon_order",
    "Causets.C44_horizon_refuted",
    "Causets.C44_AdS_directions_partial",
    "Causets.C44_AdS_refuted"
   ],
   "note": "Anti-de Sitter is refuted (not transitive, not time ordered); de Sitter and black holes proved, with the values -inf, inf and nan on the horizon. Refuted: two points on the horizon of a black hole are never related (Eddington-Finkelstein)."
  },
  {
   "property": "C45",
   "status": "proved",
   "theorems": [
    "Causets.C45_fromPermutation",
    "Causets.C45_needs_cell_size"
   ],
   "note": ""
  },
  {
   "property": "C46",
   "status": "proved",
   "theorems": [
    "Causets.C46_create",
    "Causets.C46_create_ok",
    "Causets.C46_labels_distinct",
    "Causets.C46_labels_after_discard_refuted"
   ],
   "note": "The last theorem shows that create-only histories are needed for distinct labels."
  },
  {
   "property": "C47",
   "status": "partial",
   "theorems": [
    "Causets.C47_intensity_partial",
    "Causets.C47_new",
    "Causets.C47_intensify",
    "Causets.C47_discard",
    "Causets.C47_refuted_add",
    "Causets.C47_refuted_sprinkle"
   ],
   "note": "Intensity = Card for all histories in which no call raises; refuted after a call that raises (the causet or the intensity is updated before the exception)."
  },
  {
   "property": "C48",
   "status": "partial",
   "theorems": [
    "Causets.C48_in_region_partial",
    "Causets.C48_bicone_uninitialised",
    "Causets.C48_bicone_refuted",
    "Causets.C48_cylinder_1d",
    "Causets.C48_negative",
    "Causets.C48_cuboid_onto"
   ],
   "note": "Proved for cube, cuboid, ball, cylinder (dimension at least 2). Refuted for the bicone: uninitialised memory is returned."
  },
  {
   "property": "C49",
   "status": "partial",
   "theorems": [
    "Causets.C49_fractions",
    "Causets.C49_exact",
    "Causets.C49_exact_int",
    "Causets.C49_raises",
    "Causets.C49_agree_partial",
    "Causets.C49_agree_iff",
    "Causets.C49_agree_refuted"
   ],
   "note": "Agreement refuted from 55109 on (int64 overflow), proved exactly up to there."
  },
  {
   "property": "C50",
   "status": "partial",
   "theorems": [
    "Causets.C50_finite_partial",
    "Causets.C50_refuted"
   ],
   "note": "Refuted: the int64 powers overflow to 0 for some n, division by zero."
  },
  {
   "property": "C51",
   "status": "partial",
   "theorems": [
    "Causets.C51_result",
    "Causets.C51_interval",
    "Causets.C51_residual",
    "Causets.C51_documented_interval_refuted"
   ],
   "note": "The documented interval is refuted; the interval the code keeps is proved."
  },
  {
   "property": "C52",
   "status": "proved",
   "theorems": [
    "Causets.C52_init"
   ],
   "note": ""
  },
  {
   "property": "C53",
   "status": "partial",
   "theorems": [
    "Causets.C53_volume",
    "Causets.C53_documented_cylinder_refuted",
    "Causets.C53_flat_cylinder_refuted"
   ],
   "note": "Equal to the Lebesgue measure of the region that the code describes, for all shapes and dimensions. Refuted: the documented hollow cylinder (hollow also along the duration), and positivity for the hollow cylinder in one dimension."
  },
  {
   "property": "C54",
   "status": "proved",
   "theorems": [
    "Causets.C54_limits",
    "Causets.C54_maxEdgeHalf",
    "Causets.C54_cylinder_time_only"
   ],
   "note": ""
  },
  {
   "property": "C55",
   "status": "proved",
   "theorems": [
    "Causets.C55_ellipse",
    "Causets.C55_circle",
    "Causets.C55_rectangle",
    "Causets.C55_bicone",
    "Causets.C55_cylinderCut",
    "Causets.C55_negative_hollow_refuted"
   ],
   "note": "Also the orientation. The last theorem shows that hollow >= 0 is needed."
  },
  {
   "property": "C56",
   "status": "proved",
   "theorems": [
    "Causets.C56_getColor",
    "Causets.C56_dict",
    "Causets.C56_list",
    "Causets.C56_idempotent",
    "Causets.C56_global",
    "Causets.C56_defaults",
    "Causets.C56_setDefaultColors",
    "Causets.C56_dict_failure"
   ],
   "note": ""
  },
  {
   "property": "C57",
   "status": "proved",
   "theorems": [
    "Causets.C57_pairs",
    "Causets.C57_count",
    "Causets.C57_targets",
    "Causets.C57_static",
    "Causets.C57_dynamic",
    "Causets.C57_repeated_refuted"
   ],
   "note": "A list that repeats an event raises IndexError."
  },
  {
   "property": "C58",
   "status": "proved",
   "theorems": [
    "Causets.C58_at_zero",
    "Causets.C58_wrong_side",
    "Causets.C58_linear",
    "Causets.C58_exponential",
    "Causets.C58_intensity",
    "Causets.C58_names",
    "Causets.C58_zero_depth"
   ],
   "note": ""
  },
  {
   "property": "C59",
   "status": "partial",
   "theorems": [
    "Causets.C59_refuted",
    "Causets.C59_default",
    "Causets.C59_examples"
   ],
   "note": "The list of numbers is always too short; exact outcome proved for every set."
  },
  {
   "property": "C60",
   "status": "partial",
   "theorems": [
    "Causets.C60_refuted",
    "Causets.C60_nothing_new",
    "Causets.C60_example"
   ],
   "note": "Outcome for every start; open starts never return a fence."
  },
  {
   "property": "C61",
   "status": "partial",
   "theorems": [
    "Causets.C61_flags_partial",
    "Causets.C61_new_event_refuted"
   ],
   "note": "Refuted for new events; every other statement proved for all histories."
  },
  {
   "property": "C62",
   "status": "proved",
   "theorems": [
    "Causets.C62_roundtrip",
    "Causets.C62_saves",
    "Causets.C62_small_refuted"
   ],
   "note": "Round trip for causets of at least two events; the statement excludes fewer, for which reading raises (C62_small_refuted)."
  },
  {
   "property": "C63",
   "status": "proved",
   "theorems": [
    "Causets.C63_find",
    "Causets.C63_findAll_findAny"
   ],
   "note": ""
  },
  {
   "property": "C64",
   "status": "proved",
   "theorems": [
    "Causets.C64_copy"
   ],
   "note": ""
  },
  {
   "property": "C65",
   "status": "proved",
   "theorems": [
    "Causets.C65_relabel",
    "Causets.argsort_exists"
   ],
   "note": ""
  },
  {
   "property": "C66",
   "status": "partial",
   "theorems": [
    "Causets.C66_ends_partial",
    "Causets.C66_intersection_refuted",
    "Causets.C66_isolated_refuted"
   ],
   "note": "Refuted for intersection matrices and isolated antichains."
  },
  {
   "property": "C67",
   "status": "partial",
   "theorems": [
    "Causets.C67_flat_init",
    "Causets.C67_repr_refuted",
    "Causets.C67_repr_partial"
   ],
   "note": "repr is refuted for non-periodic spacetimes."
  },
  {
   "property": "C68",
   "status": "proved",
   "theorems": [
    "Causets.C68_expansion_error"
   ],
   "note": ""
  },
  {
   "property": "C69",
   "status": "partial",
   "theorems": [
    "Causets.C69_ball",
    "Causets.C69_cuboid",
    "Causets.C69_cuboid_mesh",
    "Causets.C69_cube",
    "Causets.C69_cylinder_partial",
    "Causets.C69_cone_partial",
    "Causets.C69_cylinder_meridian",
    "Causets.C69_cone_meridian",
    "Causets.C69_cylinder_refuted",
    "Causets.C69_cone_refuted"
   ],
   "note": "Cylinders and cones along the axes 0 and 1 are refuted: they are centred at the rotated centre."
  },
  {
   "property": "C70",
   "status": "partial",
   "theorems": [
    "Causets.C70_plot3_partial",
    "Causets.C70_plot2_partial",
    "Causets.C70_bicone_refuted",
    "Causets.C70_cylinder_refuted"
   ],
   "note": "Refuted if time is the first (3 dimensions: or second) plotted dimension."
  },
  {
   "property": "C71",
   "status": "partial",
   "theorems": [
    "Causets.C71_sprinkled",
    "Causets.C71_embedded",
    "Causets.C71_embedded_refuted"
   ],
   "note": "EmbeddedCauset.LengthScale is the root of the density, not its inverse."
  },
  {
   "property": "C72",
   "status": "proved",
   "theorems": [
    "Causets.C72_new",
    "Causets.C72_sprinkle",
    "Causets.C72_intensify",
    "Causets.C72_history"
   ],
   "note": "Shapes other than the bicone; normal vectors drawn are not zero."
  },
  {
   "property": "C73",
   "status": "partial",
   "theorems": [
    "Causets.C73_hex_partial",
    "Causets.C73_refuted"
   ],
   "note": "One colour is invalid."
  },
  {
   "property": "C74",
   "status": "partial",
   "theorems": [
    "Causets.C74_half_time_refuted",
    "Causets.C74_half_time_partial",
    "Causets.C74_intensity_refuted"
   ],
   "note": "The documentation disagrees with the code."
  },
  {
   "property": "C75",
   "status": "proved",
   "theorems": [
    "Causets.C75_visible",
    "Causets.C75_drawn",
    "Causets.C75_geometry",
    "Causets.C75_artist"
   ],
   "note": ""
  },
  {
   "property": "C76",
   "status": "partial",
   "theorems": [
    "Causets.C76_points",
    "Causets.C76_order",
    "Causets.C76_markers",
    "Causets.C76_tolerance_refuted",
    "Causets.C76_on_link"
   ],
   "note": "Order proved for events exactly on the segment, refuted within the tolerance."
  },
  {
   "property": "C77",
   "status": "partial",
   "theorems": [
    "Causets.C77_two",
    "Causets.C77_three",
    "Causets.C77_user",
    "Causets.C77_automatic_refuted",
    "Causets.C77_kept"
   ],
   "note": "Proved for the keyword argument shape; the automatic shape of an EmbeddedCauset has no effect."
  },
  {
   "property": "C78",
   "status": "partial",
   "theorems": [
    "Causets.C78_iff",
    "Causets.C78_documented_refuted"
   ],
   "note": "Exact condition proved; two documented uses never return."
  },
  {
   "property": "C79",
   "status": "partial",
   "theorems": [
    "Causets.C79_errors",
    "Causets.C79_parameters",
    "Causets.C79_documented",
    "Causets.C79_defaults",
    "Causets.C79_linkgap_refuted",
    "Causets.C79_linkgap_partial"
   ],
   "note": "linkgapsize is ignored with links=True."
  },
  {
   "property": "C80",
   "status": "partial",
   "theorems": [
    "Causets.C80_antichainPermutations",
    "Causets.C80_layeredPermutations",
    "Causets.C80_singleton_refuted",
    "Causets.C80_layeredPermutations_refuted"
   ],
   "note": "Single events have no permutation."
  },
  {
   "property": "C81",
   "status": "partial",
   "theorems": [
    "Causets.C81_accepts",
    "Causets.C81_rejects_partial",
    "Causets.C81_no_dimension",
    "Causets.C81_init",
    "Causets.C81_order",
    "Causets.C81_rows_refuted"
   ],
   "note": "Rows of a list are not checked."
  },
  {
   "property": "C82",
   "status": "partial",
   "theorems": [
    "Causets.C82_new_partial",
    "Causets.C82_rejects",
    "Causets.C82_default_refuted"
   ],
   "note": "Default region is not sprinkled."
  },
  {
   "property": "C83",
   "status": "partial",
   "theorems": [
    "Causets.C83_flat_time",
    "Causets.C83_minkowski_time",
    "Causets.C83_flat_space",
    "Causets.C83_flat_3d_partial",
    "Causets.C83_flat_3d_refuted"
   ],
   "note": "3-D cones are misplaced unless the time axis is the last one."
  },
  {
   "property": "C84",
   "status": "partial",
   "theorems": [
    "Causets.C84_deSitter_2d",
    "Causets.C84_deSitter_space",
    "Causets.C84_deSitter_3d",
    "Causets.C84_deSitter_3_time",
    "Causets.C84_deSitter_time",
    "Causets.C84_offplane_refuted"
   ],
   "note": "Wrong for events off the plotted plane in 4 or more dimensions."
  },
  {
   "property": "C85",
   "status": "proved",
   "theorems": [
    "Causets.C85_derivatives",
    "Causets.C85_EF",
    "Causets.C85_S_inside_future",
    "Causets.C85_S_inside_past",
    "Causets.C85_S_outside",
    "Causets.C85_not_implemented"
   ],
   "note": "The end of a ray is where Newton's method stops (ApproxRoot)."
  },
  {
   "property": "C86",
   "status": "partial",
   "theorems": [
    "Causets.C86_positions",
    "Causets.C86_other_length",
    "Causets.C86_out_of_range",
    "Causets.C86_order",
    "Causets.C86_hasse",
    "Causets.C86_documented_refuted"
   ],
   "note": "The code uses the inverse of the documented permutation."
  },
  {
   "property": "C87",
   "status": "partial",
   "theorems": [
    "Causets.C87_parameter",
    "Causets.C87_parameter_values",
    "Causets.C87_str",
    "Causets.C87_repr_refuted"
   ],
   "note": "repr of a shape always raises."
  },
  {
   "property": "C88",
   "status": "partial",
   "theorems": [
    "Causets.C88_shape_after",
    "Causets.C88_unchanged_partial",
    "Causets.C88_volume_memory",
    "Causets.C88_volume_late",
    "Causets.C88_refuted"
   ],
   "note": "Plotting a hollow bicone in three dimensions with time shrinks it."
  },
  {
   "property": "C89",
   "status": "proved",
   "theorems": [
    "Causets.C89_order",
    "Causets.C89_links",
    "Causets.C89_questions",
    "Causets.C89_constructors",
    "Causets.C89_sprinkled"
   ],
   "note": "Programs do not contain copy and matrices that are not orders."
  },
  {
   "property": "C90",
   "status": "proved",
   "theorems": [
    "Causets.C90_cones",
    "Causets.C90_plot",
    "Causets.C90_range"
   ],
   "note": "The geometry of the cones is C83 to C85."
  },
  {
   "property": "C91",
   "status": "partial",
   "theorems": [
    "Causets.C91_order_queries",
    "Causets.C91_components",
    "Causets.C91_link_queries",
    "Causets.C91_changes",
    "Causets.C91_central_refuted",
    "Causets.C91_disjoin_refuted"
   ],
   "note": "False for CentralAntichain and for link queries after disjoin; generator orders may differ (lists of paths and components equal up to order)."
  },
  {
   "property": "C92",
   "status": "partial",
   "theorems": [
    "Causets.C92_event",
    "Causets.C92_merge",
    "Causets.C92_merge_once",
    "Causets.C92_merge_past_once",
    "Causets.C92_merge_refuted",
    "Causets.C92_add_discard",
    "Causets.C92_discard_self",
    "Causets.Objs.C92_discard_self_objects",
    "Causets.C92_antipaths",
    "Causets.C92_antipaths_once"
   ],
   "note": "False for merge and Antipaths with iterators and for discard of a causet from itself (exact outcomes proved)."
  },
  {
   "property": "C93",
   "status": "proved",
   "theorems": [
    "Causets.C93_constructors",
    "Causets.C93_matrices"
   ],
   "note": ""
  },
  {
   "property": "C94",
   "status": "partial",
   "theorems": [
    "Causets.C94_unchanged",
    "Causets.C94_order",
    "Causets.C94_link_refuted",
    "Causets.C94_relate_refuted"
   ],
   "note": "False for Causet.link (links) and relate (order)."
  },
  {
   "property": "C95",
   "status": "proved",
   "theorems": [
    "Causets.Objs.C95_arguments_kept",
    "Causets.Objs.C95_add_discard",
    "Causets.Objs.C95_causet_own_set",
    "Causets.Objs.demo_sets"
   ],
   "note": "demo_sets: a set that has been an argument, in a program with events."
  },
  {
   "property": "C96",
   "status": "proved",
   "theorems": [
    "Causets.Objs.C96_by_value",
    "Causets.Objs.C96_programs",
    "Causets.Objs.demo_prog",
    "Causets.Objs.demo_aliased"
   ],
   "note": "For merge, __init__ and the cone functions the arguments may be sets of events; a causet discarded from itself is excluded (C92)."
  },
  {
   "property": "C97",
   "status": "partial",
   "theorems": [
    "Causets.Objs.C97_snapshot",
    "Causets.Objs.C97_live",
    "Causets.Objs.C97_kept_refuted",
    "Causets.Objs.C97_own_refuted",
    "Causets.Objs.C97_disjoin_stale"
   ],
   "note": "False for Past and Future, which return the internal set objects; exact statements proved for all others and for when Past and Future stay live."
  },
  {
   "property": "C98",
   "status": "proved",
   "theorems": [
    "Causets.C98_causality",
    "Causets.C98_embedded",
    "Causets.C98_antisymm"
   ],
   "note": "The relation of anti-de Sitter spacetime is no order (C44), so points on which it is transitive are required there; the tolerance (C43, C44) is excluded by the hypothesis hgen, which holds for eps = 0 and for points in general position."
  },
  {
   "property": "C99",
   "status": "partial",
   "theorems": [
    "Causets.C99_names",
    "Causets.C99_metric_refuted"
   ],
   "note": "False for the name 'Schwarzschild'; names and dimensions proved for all."
  },
  {
   "property": "C100",
   "status": "partial",
   "theorems": [
    "Causets.C100_outcome",
    "Causets.C100_reject_refuted",
    "Causets.C100_inside_refuted",
    "Causets.C100_reject_partial"
   ],
   "note": "False: lists like [1, 1] and [0, 1] are accepted; the exact outcome is proved for every list."
  },
  {
   "property": "C101",
   "status": "partial",
   "theorems": [
    "Causets.C101_coords_partial",
    "Causets.C101_probability",
    "Causets.C101_almost_surely",
    "Causets.C101_distinct",
    "Causets.C101_sprinkle_partial",
    "Causets.C101_order_partial",
    "Causets.C101_bicone_refuted"
   ],
   "note": "False for bicones. Uniform with respect to the coordinates, whatever the spacetime (for de Sitter and black hole metrics that is not the spacetime volume). Real arithmetic."
  },
  {
   "property": "C102",
   "status": "partial",
   "theorems": [
    "Causets.C102_intensify_partial",
    "Causets.C102_new_partial",
    "Causets.C102_twice_partial",
    "Causets.C102_bicone_refuted"
   ],
   "note": "False for bicones, proved for all other shapes (cylinders of dimension at least 2)."
  },
  {
   "property": "C103",
   "status": "partial",
   "theorems": [
    "Causets.C103_calls",
    "Causets.C103_kwargs",
    "Causets.C103_first",
    "Causets.C103_fresh",
    "Causets.C103_time",
    "Causets.C103_time_ends",
    "Causets.C103_int",
    "Causets.C103_handles",
    "Causets.C103_stale",
    "Causets.C103_stale_refuted",
    "Causets.C103_dict_refuted"
   ],
   "note": "The two refuted sentences are in brackets; the first part is proved without restriction. An int as time raises TypeError when the time is needed (C103_int). `time=[t]` given to `plot` (not to the plotting function) and blending of matplotlib artists are not modelled."
  },
  {
   "property": "C104",
   "status": "partial",
   "theorems": [
    "Causets.C104_ieee",
    "Causets.C104_directions",
    "Causets.C104_curved",
    "Causets.C104_2D",
    "Causets.C104_accuracy",
    "Causets.C104_exact",
    "Causets.C104_create",
    "Causets.C104_numbers",
    "Causets.C104_large_refuted",
    "Causets.C104_deSitter",
    "Causets.C104_antiDeSitter",
    "Causets.C104_deSitter_numbers",
    "Causets.C104_BH_directions",
    "Causets.C104_BH_infall",
    "Causets.C104_BH_accuracy",
    "Causets.C104_BH_sides",
    "Causets.C104_BH_refuted"
   ],
   "note": "The refuted sentences are in brackets. Overflow to inf, NaN and points exactly on the horizon of a black hole: C116."
  },
  {
   "property": "C105",
   "status": "proved",
   "theorems": [
    "Causets.C105_isolated",
    "Causets.C105_results",
    "Causets.C105_two_causets",
    "Causets.C105_case"
   ],
   "note": "No validity hypothesis on the state or the calls. C105_two_causets starts in a state of C89. Questions without effects on events (Layers, Intervals, ...) are functions of the state and need no theorem here."
  },
  {
   "property": "C106",
   "status": "partial",
   "theorems": [
    "Causets.C106_prefix",
    "Causets.C106_all",
    "Causets.C106_contents",
    "Causets.C106_empty_refuted",
    "Causets.C106_permutation_refuted",
    "Causets.C106_list_refuted",
    "Causets.C106_case"
   ],
   "note": "The enumeration is proved in full. Refuted: the lists are no permutations of the layers (a crown gives two of three events, exDouble an event twice); list(layeredPermutations(C)) contains copies of the last combination, because the same list object is yielded again and again; for the empty event set NameError is raised."
  },
  {
   "property": "C107",
   "status": "partial",
   "theorems": [
    "Causets.C107_results",
    "Causets.C107_minimal",
    "Causets.C107_exceptions",
    "Causets.C107_permutation_partial",
    "Causets.C107_refuted",
    "Causets.C107_least_refuted",
    "Causets.C107_degree",
    "Causets.C107_numbers_refuted",
    "Causets.C107_case"
   ],
   "note": "The permutation property is proved if no list of a layer repeats an event, and refuted without (exDouble: event 3 twice, event 4 missing). For sets with a least event RuntimeError is raised. The number that is minimised is the number of extended causal relations (C107_degree). The numbers need not be a permutation of 1, \u2026, n (C107_numbers_refuted: 2, 7, 1, 5, 2, 4, 5). Missing: when the two lists together represent the (extended) order."
  },
  {
   "property": "C108",
   "status": "partial",
   "theorems": [
    "Causets.C108_small",
    "Causets.C108_two",
    "Causets.C108_never",
    "Causets.C108_past",
    "Causets.C108_refuted",
    "Causets.C108_case"
   ],
   "note": "The behaviour on antichains is characterised completely; the promise of the docstring holds only for at most one event and is refuted for every antichain with two or more."
  },
  {
   "property": "C109",
   "status": "proved",
   "theorems": [
    "Causets.C109_events",
    "Causets.C109_sets",
    "Causets.C109_layers",
    "Causets.C109_distances",
    "Causets.C109_components",
    "Causets.C109_causets",
    "Causets.C109_links",
    "Causets.C109_ranks",
    "Causets.C109_paths",
    "Causets.C109_matrices",
    "Causets.C109_local",
    "Causets.C109_realises",
    "Causets.C109_central",
    "Causets.C109_case"
   ],
   "note": "CentralAntichain depends on the iteration order (C91): the answers correspond if the sets are enumerated correspondingly. The functions that sort by labels are not included."
  },
  {
   "property": "C110",
   "status": "partial",
   "theorems": [
    "Causets.C110_events",
    "Causets.C110_sets",
    "Causets.C110_layers_partial",
    "Causets.C110_distances",
    "Causets.C110_components",
    "Causets.C110_links",
    "Causets.C110_ranks_partial",
    "Causets.C110_paths",
    "Causets.C110_matrices",
    "Causets.C110_central",
    "Causets.C110_realises",
    "Causets.C110_fromMatrix",
    "Causets.C110_case",
    "Causets.C110_refuted",
    "Causets.C110_refuted_ranks"
   ],
   "note": "Refuted for Layers and Ranks with a bound 0 of a set that is not an antichain: layer 0 and rank 0 are then always the future end of the set (C110_refuted). Everything else is proved. CentralAntichain if the sets are enumerated correspondingly."
  },
  {
   "property": "C111",
   "status": "proved",
   "theorems": [
    "Causets.C111_steps",
    "Causets.C111_extremal",
    "Causets.C111_errors",
    "Causets.C111_eager",
    "Causets.C111_antipaths",
    "Causets.C111_links",
    "Causets.C111_new",
    "Causets.C111_case",
    "Causets.C111_proviso"
   ],
   "note": "C111_proviso shows that the proviso on the interval is needed: an event put between a and b during the loop makes later values stale. A distance matrix given to Antipaths is assumed not to be written to."
  },
  {
   "property": "C112",
   "status": "proved",
   "theorems": [
    "Causets.C112_unchanged",
    "Causets.C112_changes",
    "Causets.C112_mistake",
    "Causets.C112_case"
   ],
   "note": "The set iterator of CPython is modelled by its size check (Objects/setobject.c, setiter_iternext); a replacement that preserves the number of events is not noticed by CPython and not modelled faithfully."
  },
  {
   "property": "C113",
   "status": "partial",
   "theorems": [
    "Causets.C113_minkowski",
    "Causets.C113_line",
    "Causets.C113_tolerance",
    "Causets.C113_default_minkowski",
    "Causets.C113_default_periodic",
    "Causets.C113_deSitter",
    "Causets.C113_default_deSitter",
    "Causets.C113_antiDeSitter_refuted",
    "Causets.C113_default_refuted",
    "Causets.C113_EF",
    "Causets.C113_Schwarzschild_refuted",
    "Causets.C113_default_blackHole"
   ],
   "note": "Refuted as stated, decided completely: in Minkowski spacetime of 2 or more dimensions exactly the bicones that are not hollow are causally convex, in particular the default diamond (with the tolerance: up to its root). The default cube of periodic flat spacetimes ignores the periods: it is convex (up to shifts) iff every direction has a period of at most 1, and covers no point twice iff no period is below 1, so it fits only if all periods are 1. The default cylinder is convex for de Sitter iff alpha <= 1 (any cylinder: iff it reaches the horizon), for black holes iff Eddington-Finkelstein coordinates with r_S >= 1 (not for the default 0.5), never for anti-de Sitter and the base class."
  },
  {
   "property": "C114",
   "status": "partial",
   "theorems": [
    "Causets.C114_str",
    "Causets.C114_str_zero_refuted",
    "Causets.C114_event",
    "Causets.C114_causet",
    "Causets.C114_complete",
    "Causets.C114_unlabelled_refuted",
    "Causets.C114_strings_refuted"
   ],
   "note": "Proved: the contents of the texts, no observable change, and that the text of a causal set with different labels that are nonzero integers or nonempty strings without quotes determines it (order, labels and coordinates). Refuted in general: the label 0 and the empty label are not shown (`#Event`), quotes in labels are not escaped (one event can print like two), and the text of unlabelled causal sets does not determine them."
  },
  {
   "property": "C115",
   "status": "partial",
   "theorems": [
    "Causets.C115_ieee",
    "Causets.C115_directions",
    "Causets.C115_2D",
    "Causets.C115_accuracy",
    "Causets.C115_exact",
    "Causets.C115_create",
    "Causets.C115_tolerance",
    "Causets.C115_box",
    "Causets.C115_ball",
    "Causets.C115_cylinder",
    "Causets.C115_refuted",
    "Causets.C115_sprinkle_refuted",
    "Causets.C115_box_refuted"
   ],
   "note": "The refuted sentences are in brackets, with witnesses. Periods: C119, curved spacetimes: C120. `C115_ball` assumes that the norm of the normal numbers is between 2^-50 and 2^50 (they are random). Missing: overflow. That NumPy 1 computes `0 + np.float32` and `np.float32 - float` in float64 and NumPy 2 in float32 is an assumption about NumPy (both are covered)."
  },
  {
   "property": "C116",
   "status": "partial",
   "theorems": [
    "Causets.C116_directions",
    "Causets.C116_nan",
    "Causets.C116_agree",
    "Causets.C116_infinite_time",
    "Causets.C116_infinite_space",
    "Causets.C116_2D",
    "Causets.C116_curved_directions",
    "Causets.C116_curved_nan",
    "Causets.C116_deSitter_agree",
    "Causets.C116_antiDeSitter_agree",
    "Causets.C116_BH_directions",
    "Causets.C116_BH_nan",
    "Causets.C116_BH_agree",
    "Causets.C116_BH_horizon_EF",
    "Causets.C116_BH_horizon_Schwarzschild",
    "Causets.C116_deSitter_overflow",
    "Causets.C116_antiDeSitter_infinite",
    "Causets.C116_overflow_refuted",
    "Causets.C116_deSitter_refuted"
   ],
   "note": "The refuted sentences are in brackets, with witnesses. Missing: points within 2^-400 of the horizon but not on it (with moderate radii no binary64 number is that close), signed zeros (they have no effect, see the head of Model/Ieee.lean)."
  },
  {
   "property": "C117",
   "status": "partial",
   "theorems": [
    "Causets.C117_errors",
    "Causets.C117_fit",
    "Causets.C117_flat_values",
    "Causets.C117_curved_values",
    "Causets.C117_curved_broadcast",
    "Causets.C117_curved_refuted",
    "Causets.C117_first_values",
    "Causets.C117_relate_ok",
    "Causets.C117_relate_raises",
    "Causets.C117_new",
    "Causets.C117_unembedded",
    "Causets.C117_dimension_refuted",
    "Causets.C117_lost_refuted",
    "Causets.C117_case"
   ],
   "note": "The refuted sentences are in brackets, with witnesses. In curved spacetimes a single space coordinate is repeated for the differences only, so that the order is not that of any points (C117_curved_refuted)."
  },
  {
   "property": "C118",
   "status": "partial",
   "theorems": [
    "Causets.C118_roundtrip",
    "Causets.C118_exact",
    "Causets.C118_str",
    "Causets.C118_fails_refuted",
    "Causets.C118_case"
   ],
   "note": "The refuted sentence is in brackets; which texts evaluate and to what is decided completely (C118_exact). Texts are modelled as lists of Python tokens; that the characters are split into these tokens and numbers are read as they were printed is assumed of Python. Parameters are int or float, not NumPy scalars."
  },
  {
   "property": "C119",
   "status": "partial",
   "theorems": [
    "Causets.C119_ieee",
    "Causets.C119_directions",
    "Causets.C119_accuracy",
    "Causets.C119_exact",
    "Causets.C119_create",
    "Causets.C119_numpy2",
    "Causets.C119_numpy1",
    "Causets.C119_wide_period",
    "Causets.C119_refuted"
   ],
   "note": "The refuted sentence is in brackets, with a witness. All else is proved. The promotion rules (a Python number counts as float64 with NumPy 1 and as the type of the NumPy scalar with NumPy 2) are assumptions about NumPy. No overflow."
  },
  {
   "property": "C120",
   "status": "proved",
   "theorems": [
    "Causets.C120_deSitter",
    "Causets.C120_antiDeSitter",
    "Causets.C120_deSitter_numbers",
    "Causets.C120_exact",
    "Causets.C120_create",
    "Causets.C120_directions",
    "Causets.C120_BH_accuracy",
    "Causets.C120_BH_directions",
    "Causets.C120_BH_infall",
    "Causets.C120_BH_sides"
   ],
   "note": "The promotion rules of NumPy are assumptions, both are covered. The mathematical library is assumed to be accurate to 2^-52 (relative, plus absolute), as in C104, and the logarithm of NumPy to 2^-23. No overflow."
  },
  {
   "property": "C121",
   "status": "partial",
   "theorems": [
    "Causets.C121_same",
    "Causets.C121_same_methods",
    "Causets.C121_zero",
    "Causets.C121_diagonal",
    "Causets.C121_lift",
    "Causets.C121_error",
    "Causets.C121_cylinder_1d",
    "Causets.C121_failed_state",
    "Causets.C121_refuted"
   ],
   "note": "The sentence in brackets is refuted (C121_refuted). All the others are proved. As in C48, not all normal draws of a row are 0 (the code then divides by zero), and bicones leave the memory uninitialised. No overflow of float32."
  },
  {
   "property": "C122",
   "status": "partial",
   "theorems": [
    "Causets.C122_create",
    "Causets.C122_Minkowski",
    "Causets.C122_boost",
    "Causets.C122_translate",
    "Causets.C122_space",
    "Causets.C122_flat",
    "Causets.C122_curved_rotations",
    "Causets.C122_deSitter_time",
    "Causets.C122_antiDeSitter_time",
    "Causets.C122_blackHole",
    "Causets.C122_reversal",
    "Causets.C122_reversal_refuted",
    "Causets.C122_boost_refuted",
    "Causets.C122_antiDeSitter_refuted"
   ],
   "note": "The sentence in brackets is refuted: a boost reverses the relation of two points within the tolerance (C122_boost_refuted), and in anti-de Sitter spacetime a translation of time by pi times the radius reverses all relations (C122_antiDeSitter_time, C122_antiDeSitter_refuted). All else is proved, over real numbers (rounding: C104, C115). Reversal of time is proved for flat and (anti-)de Sitter spacetimes; C122_reversal_refuted shows that it is no symmetry of black holes, as physics has it."
  },
  {
   "property": "C123",
   "status": "partial",
   "theorems": [
    "Causets.C123_causality",
    "Causets.C123_create",
    "Causets.C123_region",
    "Causets.C123_sprinkle",
    "Causets.C123_volume",
    "Causets.C123_lengthScale",
    "Causets.C123_refuted",
    "Causets.C123_unit_refuted"
   ],
   "note": "The sentence in brackets is refuted: the tolerance is the absolute number 1e-12, so that in large enough units every two points of Minkowski spacetime are causally related (C123_refuted), for example points at unit distance in a unit ten million times as long (C123_unit_refuted). All else is proved, over real numbers."
  },
  {
   "property": "C124",
   "status": "proved",
   "theorems": [
    "Causets.C124_metrics",
    "Causets.C124_create"
   ],
   "note": "Exact real arithmetic; events on the horizon have no Schwarzschild time."
  },
  {
   "property": "C125",
   "status": "partial",
   "theorems": [
    "Causets.C125_deSitter",
    "Causets.C125_EddingtonFinkelstein",
    "Causets.C125_Schwarzschild",
    "Causets.C125_lightCones",
    "Causets.C125_embedded",
    "Causets.C125_refuted"
   ],
   "note": "Proved with exact comparisons, or for points where the tolerance makes no difference. Refuted with the tolerance of the library: create makes a causal set of three points of Minkowski spacetime whose order is no product of two coordinates (it is not transitive)."
  },
  {
   "property": "C126",
   "status": "partial",
   "theorems": [
    "Causets.C126_periodic",
    "Causets.C126_periodic_sharp",
    "Causets.C126_Minkowski",
    "Causets.C126_curved",
    "Causets.C126_create",
    "Causets.C126_refuted"
   ],
   "note": "The sentence in brackets is refuted (C126_refuted): the tolerance is added to the distance in two dimensions but to its square in three, so that two points of a plane 1e-6 apart at the same time are related in three dimensions only. Half a period is sharp (C126_periodic_sharp)."
  },
  {
   "property": "C127",
   "status": "partial",
   "theorems": [
    "Causets.C127_region",
    "Causets.C127_volume",
    "Causets.C127_sprinkle",
    "Causets.C127_causet",
    "Causets.C127_flat",
    "Causets.C127_refuted"
   ],
   "note": "Proved for balls, cylinders, cubes and cuboids (regions and volumes for all shapes); refuted for bicones, for which the code computes no points (C48). Real arithmetic."
  },
  {
   "property": "C128",
   "status": "proved",
   "theorems": [
    "Causets.C128_state",
    "Causets.C128_steps",
    "Causets.C128_order",
    "Causets.C128_agree",
    "Causets.C128_links",
    "Causets.C128_flat"
   ],
   "note": "Points at the same place or, with a tolerance, at equal times are outside the hypothesis: their relation depends on the enumeration order of the set of events."
  },
  {
   "property": "C129",
   "status": "proved",
   "theorems": [
    "Causets.C129_more",
    "Causets.C129_links"
   ],
   "note": "Points no two of which precede each other (for tolerances: for which the two answers of the causality function agree), as in C128."
  },
  {
   "property": "C130",
   "status": "proved",
   "theorems": [
    "Causets.C130_intervals",
    "Causets.C130_count",
    "Causets.C130_paths",
    "Causets.C130_causet",
    "Causets.C130_default"
   ],
   "note": "Specification: natMatrix is astype(int), the powers are those of Mathlib. The default order needs labels that can be sorted, as in C37."
  },
  {
   "property": "C131",
   "status": "proved",
   "theorems": [
    "Causets.C131_inverse",
    "Causets.C131_reverse",
    "Causets.C131_dual",
    "Causets.C131_complement"
   ],
   "note": "The correspondence of the events is a bijection of the two event sets; nothing is said about the labels."
  },
  {
   "property": "C132",
   "status": "proved",
   "theorems": [
    "Causets.C132_bounds",
    "Causets.C132_unrelated",
    "Causets.C132_chain"
   ],
   "note": "Rank needs a recursion limit of at least the number of events (as in C31)."
  },
  {
   "property": "C133",
   "status": "proved",
   "theorems": [
    "Causets.C133_powers",
    "Causets.C133_zero",
    "Causets.C133_nilpotent",
    "Causets.C133_inverse",
    "Causets.C133_paths",
    "Causets.C133_causet"
   ],
   "note": "The powers and the inverse are those of the integer matrix (M.astype(int)), in exact arithmetic. The inverse is the sum over paths that discrete propagators on causal sets are computed with."
  },
  {
   "property": "C134",
   "status": "proved",
   "theorems": [
    "Causets.C134_rank",
    "Causets.C134_geodesics",
    "Causets.C134_longest"
   ],
   "note": "Rank needs a recursion limit of at least the number of events (as in C31)."
  }
 ]
}