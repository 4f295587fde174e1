{
 "claims": [
  {
   "property": "C01",
   "status": "proved",
   "theorems": [
    "Pymnet.C01_read_last_write",
    "Pymnet.C01_write_frame"
   ],
   "note": "Full. Refinement to the history over every sequence of add_node/add_layer/assignment calls."
  },
  {
   "property": "C02",
   "status": "proved",
   "theorems": [
    "Pymnet.C02_symmetric"
   ],
   "note": ""
  },
  {
   "property": "C03",
   "status": "proved",
   "theorems": [
    "Pymnet.C03_iter_out",
    "Pymnet.C03_iter_in",
    "Pymnet.C03_iter_total"
   ],
   "note": ""
  },
  {
   "property": "C04",
   "status": "proved",
   "theorems": [
    "Pymnet.C04_deg_out",
    "Pymnet.C04_deg_in",
    "Pymnet.C04_deg_undirected"
   ],
   "note": ""
  },
  {
   "property": "C05",
   "status": "partial",
   "theorems": [
    "Pymnet.C05_total_degree_exact",
    "Pymnet.C05_total_degree_partial",
    "Pymnet.C05_total_degree_restricted",
    "Pymnet.C05_false"
   ],
   "note": "False of the code after deletions (C05_false). Exact value proved for every history (C05_total_degree_exact); the documented value for histories without deletions and for restricted degrees."
  },
  {
   "property": "C06",
   "status": "proved",
   "theorems": [
    "Pymnet.C06_str_out",
    "Pymnet.C06_str_in",
    "Pymnet.C06_str_undirected",
    "Pymnet.C06_str_directed"
   ],
   "note": ""
  },
  {
   "property": "C07",
   "status": "partial",
   "theorems": [
    "Pymnet.C07_delete_partial",
    "Pymnet.C07_false"
   ],
   "note": "False of the code for undirected self-links (C07_false). The exact raising condition and the effect are proved for every history."
  },
  {
   "property": "C08",
   "status": "proved",
   "theorems": [
    "Pymnet.C08_nodes",
    "Pymnet.C08_layers",
    "Pymnet.C08_monotone",
    "Pymnet.C08_edge_endpoints"
   ],
   "note": ""
  },
  {
   "property": "C09",
   "status": "proved",
   "theorems": [
    "Pymnet.C09_short_form_read",
    "Pymnet.C09_short_form_write",
    "Pymnet.C09_wrong_arity"
   ],
   "note": ""
  },
  {
   "property": "C10",
   "status": "proved",
   "theorems": [
    "Pymnet.C10_nodes_link_nodes",
    "Pymnet.C10_link_nodes_link",
    "Pymnet.C10_mismatch"
   ],
   "note": ""
  },
  {
   "property": "C11",
   "status": "partial",
   "theorems": [
    "Pymnet.C11_slice_partial",
    "Pymnet.C11_false"
   ],
   "note": "False of the code (C11_false): net.py 498 uses item[2*i] instead of item[2*i+1]."
  },
  {
   "property": "C12",
   "status": "proved",
   "theorems": [
    "Pymnet.C12_edges_directed",
    "Pymnet.C12_edges_undirected"
   ],
   "note": ""
  },
  {
   "property": "C13",
   "status": "proved",
   "theorems": [
    "Pymnet.C13_len_edges",
    "Pymnet.C13_len_directed",
    "Pymnet.C13_len_undirected"
   ],
   "note": ""
  },
  {
   "property": "C14",
   "status": "partial",
   "theorems": [
    "Pymnet.C14_eq_partial",
    "Pymnet.C14_false",
    "Pymnet.C14_equivalence"
   ],
   "note": "False of the code for operands of different alignment (C14_false); proved iff for equal alignment."
  },
  {
   "property": "C15",
   "status": "proved",
   "theorems": [
    "Pymnet.C15_node_layers_aligned",
    "Pymnet.C15_node_layers",
    "Pymnet.C15_layer_nodes",
    "Pymnet.C15_edge_endpoints"
   ],
   "note": ""
  },
  {
   "property": "C16",
   "status": "proved",
   "theorems": [
    "Pymnet.C16_frame",
    "Pymnet.C16_frame_strength",
    "Pymnet.C16_frame_edges",
    "Pymnet.C16_idempotent"
   ],
   "note": ""
  },
  {
   "property": "C17",
   "status": "proved",
   "theorems": [
    "Pymnet.C17_node_read",
    "Pymnet.C17_node_write"
   ],
   "note": ""
  },
  {
   "property": "C18",
   "status": "proved",
   "theorems": [
    "Pymnet.C18_read",
    "Pymnet.C18_write_read",
    "Pymnet.C18_frame_layers",
    "Pymnet.C18_frame_links"
   ],
   "note": "Full, for any couplings, noEdge and alignment."
  },
  {
   "property": "C19",
   "status": "proved",
   "theorems": [
    "Pymnet.C19_rejected",
    "Pymnet.C19_rejected_new_layer",
    "Pymnet.C19_wrong_arity"
   ],
   "note": "Full: the error and the frame are proved for every history; layers or nodes the rejected call registers read 0."
  },
  {
   "property": "C20",
   "status": "proved",
   "theorems": [
    "Pymnet.C20_read",
    "Pymnet.C20_weight",
    "Pymnet.C20_iter_out",
    "Pymnet.C20_iter_in",
    "Pymnet.C20_iter_total",
    "Pymnet.C20_deg_out",
    "Pymnet.C20_deg_in",
    "Pymnet.C20_deg_undirected",
    "Pymnet.C20_str_out",
    "Pymnet.C20_str_in",
    "Pymnet.C20_str_undirected",
    "Pymnet.C20_degree_formula"
   ],
   "note": "Full for the stated quantifier."
  },
  {
   "property": "C21",
   "status": "proved",
   "theorems": [
    "Pymnet.C21_read",
    "Pymnet.C21_weight",
    "Pymnet.C21_iter_out",
    "Pymnet.C21_iter_in",
    "Pymnet.C21_iter_total",
    "Pymnet.C21_deg_out",
    "Pymnet.C21_deg_in",
    "Pymnet.C21_deg_undirected",
    "Pymnet.C21_str_out",
    "Pymnet.C21_str_in",
    "Pymnet.C21_str_undirected"
   ],
   "note": "Full for the stated quantifier (mixed ordinal/categorical)."
  },
  {
   "property": "C22",
   "status": "partial",
   "theorems": [
    "Pymnet.C22_read_partial",
    "Pymnet.C22_weight_partial",
    "Pymnet.C22_iter_out_partial",
    "Pymnet.C22_iter_in_partial",
    "Pymnet.C22_iter_total_partial",
    "Pymnet.C22_deg_out_partial",
    "Pymnet.C22_deg_in_partial",
    "Pymnet.C22_deg_undirected_partial",
    "Pymnet.C22_str_out_partial",
    "Pymnet.C22_str_in_partial",
    "Pymnet.C22_str_undirected_partial",
    "Pymnet.C22_false_ordinal",
    "Pymnet.C22_false_categorical"
   ],
   "note": "False of the code for ordinal couplings and for several aspects (C22_false_ordinal, C22_false_categorical). Proved for one categorical aspect."
  },
  {
   "property": "C23",
   "status": "partial",
   "theorems": [
    "Pymnet.C23_iter_partial",
    "Pymnet.C23_false",
    "Pymnet.C23_false_witness"
   ],
   "note": "False of the code: reading an inter-layer link raises (C23_false, for every history). Iteration proved."
  },
  {
   "property": "C24",
   "status": "partial",
   "theorems": [
    "Pymnet.C24_unwritten_partial",
    "Pymnet.C24_delete_partial",
    "Pymnet.C24_false"
   ],
   "note": "False of the code for noEdge other than 0 (C24_false). The exact behaviour is proved; it is the property when noEdge is 0."
  },
  {
   "property": "C25",
   "status": "proved",
   "theorems": [
    "Pymnet.C25_nodes",
    "Pymnet.C25_elementary_layers",
    "Pymnet.C25_layers",
    "Pymnet.C25_aligned_nodes",
    "Pymnet.C25_layer_nodes",
    "Pymnet.C25_node_layers"
   ],
   "note": "Full."
  },
  {
   "property": "C26",
   "status": "partial",
   "theorems": [
    "Pymnet.C26_aggregate",
    "Pymnet.C26_aggregate_self_directed",
    "Pymnet.C26_aggregate_self_partial",
    "Pymnet.C26_false"
   ],
   "note": "Full without self-edges and for directed networks. With selfEdges on undirected networks it is false when weights cancel (C26_false); proved for non-negative weights."
  },
  {
   "property": "C27",
   "status": "proved",
   "theorems": [
    "Pymnet.C27_overlay",
    "Pymnet.C27_overlay_directed",
    "Pymnet.C27_overlay_multiplex"
   ],
   "note": "Full for the stated quantifier; also directed general networks without intra-layer self-links, and undirected multiplex networks with any coupling."
  },
  {
   "property": "C28",
   "status": "partial",
   "theorems": [
    "Pymnet.C28_subnet_partial",
    "Pymnet.C28_false"
   ],
   "note": "Links, node-layers and layers: full. False for nodes on no layer of a non-aligned network (C28_false); the exact node set is proved."
  },
  {
   "property": "C29",
   "status": "partial",
   "theorems": [
    "Pymnet.C29_copy_full",
    "Pymnet.C29_false_short",
    "Pymnet.C29_copy_partial",
    "Pymnet.C29_false"
   ],
   "note": "False for nodes on no layer of a non-aligned network (C29_false) and when add_node was given an incomplete layer tuple (C29_false_short); in all other cases the copy looks the same and is == to the network, for any number of aspects (C29_copy_full). The model copies values, so aliasing between copy and original is not expressible."
  },
  {
   "property": "C30",
   "status": "partial",
   "theorems": [
    "Pymnet.C30_back_full",
    "Pymnet.C30_false_short",
    "Pymnet.C30_relabel",
    "Pymnet.C30_back_partial"
   ],
   "note": "Proved for all networks; == after relabelling back is false when add_node was given an incomplete layer tuple (C30_false_short) and proved otherwise, for any number of aspects (C30_back_full)."
  },
  {
   "property": "C31",
   "status": "proved",
   "theorems": [
    "Pymnet.C31_normalize"
   ],
   "note": "Full."
  },
  {
   "property": "C32",
   "status": "partial",
   "theorems": [
    "Pymnet.C32_threshold_partial",
    "Pymnet.C32_false",
    "Pymnet.C32_threshold_multiplex_partial"
   ],
   "note": "False for every non-aligned network with a node-layer (C32_false: NameError). Full for aligned general networks; aligned multiplex networks with categorical or ordinal couplings."
  },
  {
   "property": "C33",
   "status": "proved",
   "theorems": [
    "Pymnet.C33_supra",
    "Pymnet.C33_supra_monoplex",
    "Pymnet.C33_symmetric"
   ],
   "note": "Full."
  },
  {
   "property": "C34",
   "status": "proved",
   "theorems": [
    "Pymnet.C34_underlying",
    "Pymnet.C34_underlying_multiplex"
   ],
   "note": "Full for general networks; multiplex networks in the cases of C20-C22."
  },
  {
   "property": "C35",
   "status": "proved",
   "theorems": [
    "Pymnet.C35_degs",
    "Pymnet.C35_handshake",
    "Pymnet.C35_multiplex"
   ],
   "note": "Full: general networks (directed and undirected) and undirected multiplex networks."
  },
  {
   "property": "C36",
   "status": "proved",
   "theorems": [
    "Pymnet.C36_density",
    "Pymnet.C36_raises",
    "Pymnet.C36_multiplex"
   ],
   "note": "Full: density over the rationals; general and multiplex networks; the raising cases are proved exactly."
  },
  {
   "property": "C37",
   "status": "proved",
   "theorems": [
    "Pymnet.C37_distances",
    "Pymnet.C37_terminates",
    "Pymnet.C37_multiplex"
   ],
   "note": "Full, for every heap tie-breaking; ties are assumed not to raise. General and multiplex networks."
  },
  {
   "property": "C38",
   "status": "partial",
   "theorems": [
    "Pymnet.C38_terminates_partial",
    "Pymnet.C38_false"
   ],
   "note": "The property is false: C38_false. C38_terminates_partial characterises termination exactly for non-negative weights."
  },
  {
   "property": "C39",
   "status": "proved",
   "theorems": [
    "Pymnet.C39_lcc",
    "Pymnet.C39_range"
   ],
   "note": "Full; self-links are also covered."
  },
  {
   "property": "C40",
   "status": "partial",
   "theorems": [
    "Pymnet.C40_barrett_partial",
    "Pymnet.C40_contraction_m",
    "Pymnet.C40_false_undefined",
    "Pymnet.C40_false_negative"
   ],
   "note": "Contractions: full, general one-aspect networks, directed or not. Barrett: equal when the undefined value is 0 (default), for categorical couplings or node-aligned networks; false for other undefined values (C40_false_undefined) and, for the optimised variant, with negative weights (C40_false_negative)."
  },
  {
   "property": "C41",
   "status": "partial",
   "theorems": [
    "Pymnet.C41_is_isomorphic_partial",
    "Pymnet.C41_raises",
    "Pymnet.C41_multiplex_partial",
    "Pymnet.C41_false",
    "Pymnet.C41_false_monoplex"
   ],
   "note": "True iff isomorphic, for every correct backend; general and multiplex networks with at least one aspect. False as stated: AssertionError instead of False when the numbers of colours differ (C41_raises, C41_false), and networks without aspects get a wrong graph (C41_false_monoplex)."
  },
  {
   "property": "C42",
   "status": "proved",
   "theorems": [
    "Pymnet.C42_required_lengths",
    "Pymnet.C42_rejects"
   ],
   "note": "Full, for families of non-empty sets (the function rejects sizes below 1)."
  },
  {
   "property": "C43",
   "status": "proved",
   "theorems": [
    "Pymnet.C43_custom",
    "Pymnet.C43_nnodes_nlayers",
    "Pymnet.C43_intersections",
    "Pymnet.C43_nnodes",
    "Pymnet.C43_common"
   ],
   "note": "Full for one-aspect networks: every documented combination of arguments. Connectivity is tested by networkx: assumed correct (TestsConnected, shown satisfiable)."
  },
  {
   "property": "C44",
   "status": "proved",
   "theorems": [
    "Pymnet.C44_pairs",
    "Pymnet.C44_single_layer",
    "Pymnet.C44_er_monoplex",
    "Pymnet.C44_er_layers",
    "Pymnet.C44_er_layers_nodes"
   ],
   "note": "Full: bijection of the index formula over the reals, and the exact number of links for every sample, for er with edges in all four argument forms."
  },
  {
   "property": "C45",
   "status": "proved",
   "theorems": [
    "Pymnet.C45_full_monoplex",
    "Pymnet.C45_full_layers",
    "Pymnet.C45_full_multilayer",
    "Pymnet.C45_one_node"
   ],
   "note": "Full for the stated quantifier; full(1,...) is empty (C45_one_node)."
  },
  {
   "property": "C46",
   "status": "proved",
   "theorems": [
    "Pymnet.C46_generators",
    "Pymnet.C46_orbits",
    "Pymnet.C46_multiplex"
   ],
   "note": "Full: for arbitrary generators, and end to end from the network for general and multiplex networks (backend assumed to return generators, Spec.FindsGens)."
  },
  {
   "property": "C47",
   "status": "proved",
   "theorems": [
    "Pymnet.C47_layer_combinations",
    "Pymnet.C47_partitions",
    "Pymnet.C47_partitions_raises"
   ],
   "note": "Full."
  },
  {
   "property": "C48",
   "status": "partial",
   "theorems": [
    "Pymnet.C48_restores_partial",
    "Pymnet.C48_transparent",
    "Pymnet.C48_false",
    "Pymnet.C48_sequence"
   ],
   "note": "False when the wrapped function raises (C48_false: networkx.Graph stays replaced for good). Proved for every call that returns or is rejected, for arbitrary wrapped functions, and for sequences of calls."
  },
  {
   "property": "C49",
   "status": "partial",
   "theorems": [
    "Pymnet.C49_no_self_neighbour_partial",
    "Pymnet.C49_false"
   ],
   "note": "False of the code (C49_false); proved for histories without such writes."
  },
  {
   "property": "C50",
   "status": "proved",
   "theorems": [
    "Pymnet.C50_edges_aligned",
    "Pymnet.C50_edges_nonaligned"
   ],
   "note": "Full for the stated quantifier."
  },
  {
   "property": "C51",
   "status": "proved",
   "theorems": [
    "Pymnet.C51_eq"
   ],
   "note": "Full."
  },
  {
   "property": "C52",
   "status": "partial",
   "theorems": [
    "Pymnet.C52_false",
    "Pymnet.C52_strength_partial"
   ],
   "note": "False of the code (C52_false); the exact difference is proved for categorical couplings."
  },
  {
   "property": "C53",
   "status": "partial",
   "theorems": [
    "Pymnet.C53_iter_out_partial",
    "Pymnet.C53_iter_in_partial",
    "Pymnet.C53_false"
   ],
   "note": "False of the code (C53_false); proved for restrictions that agree with the node-layer's own indices."
  },
  {
   "property": "C54",
   "status": "proved",
   "theorems": [
    "Pymnet.C54_aggregate"
   ],
   "note": "Full for the stated quantifier."
  },
  {
   "property": "C55",
   "status": "proved",
   "theorems": [
    "Pymnet.C55_get_isomorphism",
    "Pymnet.C55_multiplex"
   ],
   "note": "Full for the stated quantifier, for every correct backend. A non-isomorphic pair gives None or the AssertionError of C41."
  },
  {
   "property": "C56",
   "status": "proved",
   "theorems": [
    "Pymnet.C56_complete_invariant",
    "Pymnet.C56_multiplex"
   ],
   "note": "Full for the stated quantifier, for every canonical form."
  },
  {
   "property": "C57",
   "status": "proved",
   "theorems": [
    "Pymnet.C57_generators",
    "Pymnet.C57_multiplex"
   ],
   "note": "Full for the stated quantifier, for every correct backend."
  },
  {
   "property": "C58",
   "status": "partial",
   "theorems": [
    "Pymnet.C58_nnodes_nlayers_partial",
    "Pymnet.C58_intersections_partial",
    "Pymnet.C58_nnodes_partial",
    "Pymnet.C58_common_partial",
    "Pymnet.C58_custom_partial",
    "Pymnet.C58_false_selflink",
    "Pymnet.C58_false_noEdge"
   ],
   "note": "All documented usages, both modes, all draws and pop orders. In copy mode (default) only for noEdge=0 and networks without self-links; negations proved for both. Undirected networks."
  },
  {
   "property": "C59",
   "status": "proved",
   "theorems": [
    "Pymnet.C59_zhang",
    "Pymnet.C59_gcc_zhang",
    "Pymnet.C59_no_links"
   ],
   "note": "Full for the stated quantifier."
  },
  {
   "property": "C60",
   "status": "proved",
   "theorems": [
    "Pymnet.C60_barrat"
   ],
   "note": "Full for the stated quantifier."
  },
  {
   "property": "C61",
   "status": "partial",
   "theorems": [
    "Pymnet.C61_battiston_multiplex",
    "Pymnet.C61_battiston1",
    "Pymnet.C61_battiston2",
    "Pymnet.C61_range",
    "Pymnet.C61_false_documented"
   ],
   "note": "The formula the code computes is proved for general (directed or not) and multiplex networks; it is the documented one divided by b-1 (b-2), so the documented formula and value are false (C61_false_documented)."
  },
  {
   "property": "C62",
   "status": "partial",
   "theorems": [
    "Pymnet.C62_brodka",
    "Pymnet.C62_brodka_aggregated_partial",
    "Pymnet.C62_false_weighted"
   ],
   "note": "The formula is proved for all such networks (docs: <= t should be >= t). The variant with the aggregated network agrees on unweighted networks and is false with weights (C62_false_weighted)."
  },
  {
   "property": "C63",
   "status": "proved",
   "theorems": [
    "Pymnet.C63_criado",
    "Pymnet.C63_criado_aggregated"
   ],
   "note": "Full; the aggregated variant for non-negative weights. The docs say the edges of the aggregated network are counted; the code counts those of the layer."
  },
  {
   "property": "C64",
   "status": "partial",
   "theorems": [
    "Pymnet.C64_contraction_o",
    "Pymnet.C64_range",
    "Pymnet.C64_false_o"
   ],
   "note": "o2 and o_full proved equal; gcc_contraction_o differs with more than one layer (C64_false_o)."
  },
  {
   "property": "C65",
   "status": "proved",
   "theorems": [
    "Pymnet.C65_layers",
    "Pymnet.C65_sequence",
    "Pymnet.C65_super_graph",
    "Pymnet.C65_super_graph_multiplex",
    "Pymnet.C65_range"
   ],
   "note": "Full; gcc_super_graph of multiplex networks: node-aligned, categorical or ordinal couplings."
  },
  {
   "property": "C66",
   "status": "proved",
   "theorems": [
    "Pymnet.C66_orbits",
    "Pymnet.C66_multiplex"
   ],
   "note": "Full, for general and multiplex networks (backend assumed to return generators)."
  },
  {
   "property": "C67",
   "status": "partial",
   "theorems": [
    "Pymnet.C67_partitions_with_remainder_partial",
    "Pymnet.C67_false"
   ],
   "note": "Proved where xrange is defined; in Python 3 the call always raises NameError (C67_false)."
  },
  {
   "property": "C68",
   "status": "proved",
   "theorems": [
    "Pymnet.C68_list_orbits"
   ],
   "note": "Full."
  },
  {
   "property": "C69",
   "status": "partial",
   "theorems": [
    "Pymnet.C69_skips",
    "Pymnet.C69_single_layer",
    "Pymnet.C69_er_monoplex",
    "Pymnet.C69_er_layers",
    "Pymnet.C69_er_layers_nodes",
    "Pymnet.C69_er_partially_interconnected",
    "Pymnet.C69_false_zero",
    "Pymnet.C69_parameters"
   ],
   "note": "False for p=0 (C69_false_zero). Proved for 0<p<=1: structure, link selection for every sequence of random numbers, and the exact interval of random numbers for each gap. Probability measures are not formalised."
  },
  {
   "property": "C70",
   "status": "partial",
   "theorems": [
    "Pymnet.C70_er_multilayer",
    "Pymnet.C70_false_nodes"
   ],
   "note": "The links are exact for every outcome (C70_er_multilayer); nodes and layers without links are missing (C70_false_nodes)."
  },
  {
   "property": "C71",
   "status": "proved",
   "theorems": [
    "Pymnet.C71_ba_total_degree",
    "Pymnet.C71_never_raises",
    "Pymnet.C71_preferential"
   ],
   "note": "Full. The preference is stated on the list from which the code samples uniformly."
  },
  {
   "property": "C72",
   "status": "partial",
   "theorems": [
    "Pymnet.C72_overlaps",
    "Pymnet.C72_raises",
    "Pymnet.C72_returns",
    "Pymnet.C72_false_layer_edges"
   ],
   "note": "The aggregated network is exact (C72_overlaps); the number of links per layer is false of the code (C72_false_layer_edges), its exact value is proved."
  },
  {
   "property": "C73",
   "status": "proved",
   "theorems": [
    "Pymnet.C73_conf",
    "Pymnet.C73_errors",
    "Pymnet.C73_refuses",
    "Pymnet.C73_reaches"
   ],
   "note": "Full, with exceptions and completeness."
  },
  {
   "property": "C74",
   "status": "proved",
   "theorems": [
    "Pymnet.C74_named",
    "Pymnet.C74_list",
    "Pymnet.C74_errors"
   ],
   "note": "Full."
  },
  {
   "property": "C75",
   "status": "partial",
   "theorems": [
    "Pymnet.C75_returns_partial",
    "Pymnet.C75_false_small",
    "Pymnet.C75_false_triangle"
   ],
   "note": "False of the code (C75_false_small, C75_false_triangle); C75_returns_partial: it returns if the shuffled stubs need no repairs."
  },
  {
   "property": "C76",
   "status": "proved",
   "theorems": [
    "Pymnet.C76_net",
    "Pymnet.C76_plex"
   ],
   "note": "Full, for undirected networks."
  },
  {
   "property": "C77",
   "status": "proved",
   "theorems": [
    "Pymnet.C77_links",
    "Pymnet.C77_overlap",
    "Pymnet.C77_errors",
    "Pymnet.C77_refuses",
    "Pymnet.C77_reaches"
   ],
   "note": "Full, with exceptions and completeness. Termination fails as for C75."
  },
  {
   "property": "C78",
   "status": "partial",
   "theorems": [
    "Pymnet.C78_nodes_partial",
    "Pymnet.C78_false_nodes"
   ],
   "note": "False of the code (C78_false_nodes); the exact nodes and layers are proved (C78_nodes_partial)."
  },
  {
   "property": "C79",
   "status": "proved",
   "theorems": [
    "Pymnet.C79_node_layer",
    "Pymnet.C79_sums"
   ],
   "note": "Full for categorical couplings (node-aligned sums without a node are C81)."
  },
  {
   "property": "C80",
   "status": "proved",
   "theorems": [
    "Pymnet.C80_lcc_aw",
    "Pymnet.C80_range",
    "Pymnet.C80_lcc_aw_range",
    "Pymnet.C80_sncc_aw",
    "Pymnet.C80_avg_lcc_aw",
    "Pymnet.C80_avg_lcc_aw_range",
    "Pymnet.C80_moreno2"
   ],
   "note": "Full for categorical couplings."
  },
  {
   "property": "C81",
   "status": "partial",
   "theorems": [
    "Pymnet.C81_anet_partial",
    "Pymnet.C81_elementary_partial",
    "Pymnet.C81_false_weights"
   ],
   "note": "False of the code for weighted networks (C81_false_weights); proved for links of weight 1."
  },
  {
   "property": "C82",
   "status": "partial",
   "theorems": [
    "Pymnet.C82_gcc_aw_partial",
    "Pymnet.C82_false_weights"
   ],
   "note": "False of the code for weighted node-aligned networks (C82_false_weights); proved for networks that are not node-aligned and for links of weight 1."
  },
  {
   "property": "C83",
   "status": "partial",
   "theorems": [
    "Pymnet.C83_false_ordinal"
   ],
   "note": "False of the code (C83_false_ordinal). For categorical couplings C79 is the full statement."
  },
  {
   "property": "C84",
   "status": "proved",
   "theorems": [
    "Pymnet.C84_subnet",
    "Pymnet.C84_missing_layer",
    "Pymnet.C84_wrong_number"
   ],
   "note": "Full; network couplings are C86."
  },
  {
   "property": "C85",
   "status": "proved",
   "theorems": [
    "Pymnet.C85_relabel",
    "Pymnet.C85_merged_nodes"
   ],
   "note": "Full; network couplings are C86."
  },
  {
   "property": "C86",
   "status": "partial",
   "theorems": [
    "Pymnet.C86_false_relabel",
    "Pymnet.C86_false_subnet"
   ],
   "note": "False of the code: C86_false_subnet, C86_false_relabel."
  },
  {
   "property": "C87",
   "status": "proved",
   "theorems": [
    "Pymnet.C87_graphlets"
   ],
   "note": "Full; the isomorphism backend's canonical form and str are parameters (Spec.Canonical, injective)."
  },
  {
   "property": "C88",
   "status": "proved",
   "theorems": [
    "Pymnet.C88_distinct"
   ],
   "note": "Full, as C87."
  },
  {
   "property": "C89",
   "status": "proved",
   "theorems": [
    "Pymnet.C89_complete"
   ],
   "note": "Full, as C87."
  },
  {
   "property": "C90",
   "status": "proved",
   "theorems": [
    "Pymnet.C90_touching"
   ],
   "note": "Full."
  },
  {
   "property": "C91",
   "status": "proved",
   "theorems": [
    "Pymnet.C91_counts"
   ],
   "note": "Full; the graph library (isomorphisms, canonical forms, generators of automorphisms) and str are parameters."
  },
  {
   "property": "C92",
   "status": "proved",
   "theorems": [
    "Pymnet.C92_all",
    "Pymnet.C92_agree"
   ],
   "note": "Full, as C91."
  },
  {
   "property": "C93",
   "status": "partial",
   "theorems": [
    "Pymnet.C93_false",
    "Pymnet.C93_partial"
   ],
   "note": "False of the code (C93_false: every link reads 0 afterwards); nodes and layers stay."
  },
  {
   "property": "C94",
   "status": "proved",
   "theorems": [
    "Pymnet.C94_orbits",
    "Pymnet.C94_numbers"
   ],
   "note": "Full, as C91."
  },
  {
   "property": "C95",
   "status": "partial",
   "theorems": [
    "Pymnet.C95_prune",
    "Pymnet.C95_directed_partial",
    "Pymnet.C95_multiplex_partial",
    "Pymnet.C95_refused",
    "Pymnet.C95_multiplex_unaligned_partial"
   ],
   "note": "Full for undirected general networks with an aspect; directed networks without deletions (C95_directed_partial: C05 makes total degrees wrong after deletions); undirected node-aligned multiplex networks (C95_multiplex_partial); undirected multiplex networks with one aspect and categorical couplings, node-aligned or not, if the sources name existing layers and nodes that are on some layer (C95_multiplex_unaligned_partial). Termination is stated exactly. Recursion limit larger than the number of node-layers."
  },
  {
   "property": "C96",
   "status": "proved",
   "theorems": [
    "Pymnet.C96_degs",
    "Pymnet.C96_density",
    "Pymnet.C96_raises"
   ],
   "note": "Full (degrees: undirected networks)."
  },
  {
   "property": "C97",
   "status": "partial",
   "theorems": [
    "Pymnet.C97_false"
   ],
   "note": "False of the code (C97_false: NameError for every multiplex network)."
  },
  {
   "property": "C98",
   "status": "partial",
   "theorems": [
    "Pymnet.C98_edge_files",
    "Pymnet.C98_bad_line",
    "Pymnet.C98_false_selflinks",
    "Pymnet.C98_false_files"
   ],
   "note": "C98_edge_files and C98_bad_line for the links; false of the code for self-links with ignoreSelfLink=False (C98_false_selflinks) and the layer and node files (C98_false_files)."
  },
  {
   "property": "C99",
   "status": "proved",
   "theorems": [
    "Pymnet.C99_json",
    "Pymnet.C99_aspects"
   ],
   "note": "Full."
  },
  {
   "property": "C100",
   "status": "partial",
   "theorems": [
    "Pymnet.C100_edge_files",
    "Pymnet.C100_rows",
    "Pymnet.C100_false_roundtrip",
    "Pymnet.C100_false_overwritten"
   ],
   "note": "C100_edge_files, C100_rows; the round trip is false of the code (C100_false_roundtrip), as is the separation of layers with equal text (C100_false_overwritten)."
  },
  {
   "property": "C101",
   "status": "partial",
   "theorems": [
    "Pymnet.C101_levels_partial",
    "Pymnet.C101_single_partial",
    "Pymnet.C101_embedded_levels_partial",
    "Pymnet.C101_embedded_single_partial",
    "Pymnet.C101_linked",
    "Pymnet.C101_symmetric",
    "Pymnet.C101_false_empty_level",
    "Pymnet.C101_false_isolated",
    "Pymnet.C101_false_format",
    "Pymnet.C101_false_lower_case",
    "Pymnet.C101_false_broken_row",
    "Pymnet.C101_row_number",
    "Pymnet.C101_row_number_embedded"
   ],
   "note": "Partial theorems for separate and embedded labels, one and several levels, with the meaning of the weights in C101_linked and C101_symmetric; the other clauses are false of the code (C101_false_\u2026). Files with a wrong number of rows give no network (C101_row_number, C101_row_number_embedded)."
  },
  {
   "property": "C102",
   "status": "proved",
   "theorems": [
    "Pymnet.C102_sccs",
    "Pymnet.C102_open"
   ],
   "note": "Full."
  },
  {
   "property": "C103",
   "status": "partial",
   "theorems": [
    "Pymnet.C103_split",
    "Pymnet.C103_false_three",
    "Pymnet.C103_false_independent"
   ],
   "note": "C103_split is what holds: every equation in one set, dependent ones follow under a condition on equations of three orbits; the other clauses are false (C103_false_three, C103_false_independent)."
  },
  {
   "property": "C104",
   "status": "partial",
   "theorems": [
    "Pymnet.C104_best_partial",
    "Pymnet.C104_false_none"
   ],
   "note": "C104_best_partial; if there is no dependent equation the call raises (C104_false_none)."
  },
  {
   "property": "C105",
   "status": "proved",
   "theorems": [
    "Pymnet.C105_definitely",
    "Pymnet.C105_linear"
   ],
   "note": "Full; linear independence over the rationals in C105_linear."
  },
  {
   "property": "C106",
   "status": "partial",
   "theorems": [
    "Pymnet.C106_redundant",
    "Pymnet.C106_false_order"
   ],
   "note": "C106_redundant describes both endings; independence of the order is false (C106_false_order)."
  },
  {
   "property": "C107",
   "status": "proved",
   "theorems": [
    "Pymnet.C107_coefficient"
   ],
   "note": "Full, for tables made by graphlets and automorphism_orbits."
  },
  {
   "property": "C108",
   "status": "proved",
   "theorems": [
    "Pymnet.C108_product",
    "Pymnet.C108_equation"
   ],
   "note": "Full: C108_product (all orbits of at least the larger size) and C108_equation (the form of the equations). The generation of the orbits of an equation by orbit_equations itself is not modelled."
  },
  {
   "property": "C109",
   "status": "proved",
   "theorems": [
    "Pymnet.C109_name"
   ],
   "note": "Full."
  },
  {
   "property": "C110",
   "status": "partial",
   "theorems": [
    "Pymnet.C110_false",
    "Pymnet.C110_disjoint_partial",
    "Pymnet.C110_false_disjoint"
   ],
   "note": "False in Python 3 (C110_false); where xrange is defined the value is exactly described (C110_disjoint_partial) and differs from the number needed (C110_false_disjoint)."
  },
  {
   "property": "C111",
   "status": "proved",
   "theorems": [
    "Pymnet.C111_induced",
    "Pymnet.C111_aspects",
    "Pymnet.C111_multiplex"
   ],
   "note": "Full."
  },
  {
   "property": "C112",
   "status": "partial",
   "theorems": [
    "Pymnet.C112_every_partial",
    "Pymnet.C112_spanning_partial",
    "Pymnet.C112_false",
    "Pymnet.C112_false_multiplex"
   ],
   "note": "False when nodes or layers are removed (C112_false) and for node-aligned multiplex networks with couplings (C112_false_multiplex). Proved: every sub-network is yielded (C112_every_partial), and with nothing but links removed exactly the spanning sub-networks, each once (C112_spanning_partial), for general networks."
  },
  {
   "property": "C113",
   "status": "partial",
   "theorems": [
    "Pymnet.C113_assign_partial",
    "Pymnet.C113_errors",
    "Pymnet.C113_false"
   ],
   "note": "Proved for node-aligned networks (C113_assign_partial); errors for all (C113_errors). False for networks that are not node-aligned (C113_false)."
  },
  {
   "property": "C114",
   "status": "proved",
   "theorems": [
    "Pymnet.C114_nodes",
    "Pymnet.C114_rows",
    "Pymnet.C114_cells",
    "Pymnet.C114_reachable"
   ],
   "note": ""
  },
  {
   "property": "C115",
   "status": "partial",
   "theorems": [
    "Pymnet.C115_set_partial",
    "Pymnet.C115_false",
    "Pymnet.C115_cell",
    "Pymnet.C115_delete_partial",
    "Pymnet.C115_delete_missing",
    "Pymnet.C115_self",
    "Pymnet.C115_row_partial",
    "Pymnet.C115_row_false"
   ],
   "note": "Proved for attributes that start with the weight and links between different nodes (C115_set_partial, C115_cell, C115_delete_partial, C115_row_partial). False in general: C115_false, C115_delete_missing, C115_self, C115_row_false."
  },
  {
   "property": "C116",
   "status": "proved",
   "theorems": [
    "Pymnet.C116_randomize",
    "Pymnet.C116_errors"
   ],
   "note": "For any permutation as outcome of each shuffle; raises for networks with other than one aspect and for couplings that are networks (C116_errors)."
  },
  {
   "property": "C117",
   "status": "proved",
   "theorems": [
    "Pymnet.C117_er_pairs"
   ],
   "note": ""
  },
  {
   "property": "C118",
   "status": "proved",
   "theorems": [
    "Pymnet.C118_geo",
    "Pymnet.C118_small"
   ],
   "note": "With n < 2 an exception is raised (C118_small). networkx is assumed to return graphs and to keep given positions."
  },
  {
   "property": "C119",
   "status": "partial",
   "theorems": [
    "Pymnet.C119_ws",
    "Pymnet.C119_false_edges"
   ],
   "note": "With the number of neighbors the code asks for; that the layer then has the required number of edges only if n divides it is C119_false_edges."
  },
  {
   "property": "C120",
   "status": "proved",
   "theorems": [
    "Pymnet.C120_keys",
    "Pymnet.C120_terms"
   ],
   "note": "For tables made by the modelled graphlets and automorphism_orbits (Spec.Prepared); node names are integers."
  },
  {
   "property": "C121",
   "status": "partial",
   "theorems": [
    "Pymnet.C121_equation_partial"
   ],
   "note": "Proved for n up to 5 and graphlets whose layers keep their names (or with one layer), and for n up to 4, any allowed aspects, any number of layers and any coupling that is not ordinal. Missing: with 6 nodes, merge_nodes keeps one of several isomorphic merged graphlets although different links can be added to them, so terms are missing; with 5 nodes and three layers that may be renamed, combine_orbits does not try all permutations."
  },
  {
   "property": "C122",
   "status": "partial",
   "theorems": [
    "Pymnet.C122_modularity_partial",
    "Pymnet.C122_false_no_aspects",
    "Pymnet.C122_false_layer_without_links"
   ],
   "note": "Proved for general networks with at least one aspect and a total weight other than zero (C122_modularity_partial). False without aspects (C122_false_no_aspects: the constructor raises) and for layers without links (C122_false_layer_without_links: ZeroDivisionError). Numbers are exact."
  },
  {
   "property": "C123",
   "status": "proved",
   "theorems": [
    "Pymnet.C123_row_sums"
   ],
   "note": "For general networks with a total weight other than zero; without total weight the constructor divides by zero. Numbers are exact."
  },
  {
   "property": "C124",
   "status": "partial",
   "theorems": [
    "Pymnet.C124_normalize_partial",
    "Pymnet.C124_flat",
    "Pymnet.C124_empty",
    "Pymnet.C124_false_box"
   ],
   "note": "Proved for the unit square, with the exact conditions for the exceptions (C124_normalize_partial, C124_flat, C124_empty). False for other boxes: boxSize is ignored (C124_false_box). Numbers are exact."
  },
  {
   "property": "C125",
   "status": "partial",
   "theorems": [
    "Pymnet.C125_layout_partial",
    "Pymnet.C125_one_node",
    "Pymnet.C125_aligned_aspects",
    "Pymnet.C125_false_box",
    "Pymnet.C125_false_fixed",
    "Pymnet.C125_false_no_layer"
   ],
   "note": "With aligned nodes, for general networks. Proved: coordinates for exactly the nodes that fill the unit square, with fixed nodes in the same relative positions, or a ZeroDivisionError, which is certain for a single node (C125_one_node). False for other boxes, fixed nodes, nodes on no layer, and fully interconnected networks with several aspects. The square root is an arbitrary function; alignedNodes=False is C148."
  },
  {
   "property": "C126",
   "status": "partial",
   "theorems": [
    "Pymnet.C126_figure_partial",
    "Pymnet.C126_aspects",
    "Pymnet.C126_false",
    "Pymnet.C126_multiplex_partial"
   ],
   "note": "Proved for general networks with one aspect (C126_figure_partial) and multiplex networks with categorical or, if node-aligned, ordinal couplings (C126_multiplex_partial); in directed networks links are also drawn in the direction in which there is none (C126_false)."
  },
  {
   "property": "C127",
   "status": "proved",
   "theorems": [
    "Pymnet.C127_figure_normalize"
   ],
   "note": "Numbers are exact."
  },
  {
   "property": "C128",
   "status": "partial",
   "theorems": [
    "Pymnet.C128_false",
    "Pymnet.C128_ends_partial"
   ],
   "note": "False: only nodes have their second and third coordinate multiplied by 10 (C128_false); exact condition in C128_ends_partial."
  },
  {
   "property": "C129",
   "status": "partial",
   "theorems": [
    "Pymnet.C129_random_partial",
    "Pymnet.C129_fr_partial",
    "Pymnet.C129_false",
    "Pymnet.C129_nx"
   ],
   "note": "Proved for random, and for fr with aligned nodes. False for fr without aligned nodes (C129_false). The layouts of networkx are a parameter."
  },
  {
   "property": "C130",
   "status": "partial",
   "theorems": [
    "Pymnet.C130_dict",
    "Pymnet.C130_default",
    "Pymnet.C130_unknown",
    "Pymnet.C130_rule",
    "Pymnet.C130_order",
    "Pymnet.C130_false_default"
   ],
   "note": "Proved, except that a rule that gives None is not followed by the default (C130_false_default). Not modelled: colormaps. Node sizes are in C147."
  },
  {
   "property": "C131",
   "status": "partial",
   "theorems": [
    "Pymnet.C131_dict",
    "Pymnet.C131_same_partial",
    "Pymnet.C131_false"
   ],
   "note": "Proved for dictionaries and the rules edgetype, edgeweight and layer; false for the rule order (C131_false)."
  },
  {
   "property": "C132",
   "status": "proved",
   "theorems": [
    "Pymnet.C132_onnela",
    "Pymnet.C132_equal_weights",
    "Pymnet.C132_no_links"
   ],
   "note": "Proved over an ordered field with a cube root; numbers are exact."
  },
  {
   "property": "C133",
   "status": "proved",
   "theorems": [
    "Pymnet.C133_value",
    "Pymnet.C133_metric",
    "Pymnet.C133_correlation_matrices",
    "Pymnet.C133_matrix"
   ],
   "note": "Proved over the reals. GCM (numpy and scipy) is not modelled."
  },
  {
   "property": "C134",
   "status": "proved",
   "theorems": [
    "Pymnet.C134_couplings",
    "Pymnet.C134_exclusive",
    "Pymnet.C134_default_weight"
   ],
   "note": "Proved for strings, tuples with the weights given, networks and lists of these."
  },
  {
   "property": "C135",
   "status": "partial",
   "theorems": [
    "Pymnet.C135_read_partial",
    "Pymnet.C135_degree_partial",
    "Pymnet.C135_false_iter",
    "Pymnet.C135_false_strength"
   ],
   "note": "Reading and degrees proved; iterating neighbours raises TypeError and strengths raise IndexError in every such network (C135_false_iter, C135_false_strength)."
  },
  {
   "property": "C136",
   "status": "partial",
   "theorems": [
    "Pymnet.C136_strength_partial",
    "Pymnet.C136_false"
   ],
   "note": "False for couplings=None, the default: the strength raises IndexError (C136_false). Proved for the string 'none'."
  },
  {
   "property": "C137",
   "status": "partial",
   "theorems": [
    "Pymnet.C137_three_partial",
    "Pymnet.C137_false_two",
    "Pymnet.C137_false_four"
   ],
   "note": "Proved for graphlets up to three nodes, where all equations are independent and returned (C137_three_partial). False for two nodes: UnboundLocalError (C137_false_two). False in Python 3 for four or more nodes on all of two or more layers: no call returns, because xrange is used (C137_false_four). Not proved: what the call returns in Python 2 for four or more nodes."
  },
  {
   "property": "C138",
   "status": "proved",
   "theorems": [
    "Pymnet.C138_find",
    "Pymnet.C138_layers"
   ],
   "note": "For the equations that orbit_equations makes from tables made by graphlets."
  },
  {
   "property": "C139",
   "status": "partial",
   "theorems": [
    "Pymnet.C139_weights",
    "Pymnet.C139_counts",
    "Pymnet.C139_absent",
    "Pymnet.C139_false_one",
    "Pymnet.C139_false_coupling",
    "Pymnet.C139_agrees"
   ],
   "note": "For a categorical coupling of weight 1 and at least two nodes. False with one node: ValueError (C139_false_one). False in node-aligned networks with other coupling weights: AssertionError (C139_false_coupling). Numbers are elements of a field, not floating point numbers, so rounding cannot make an assertion fail in the model."
  },
  {
   "property": "C140",
   "status": "partial",
   "theorems": [
    "Pymnet.C140_lists",
    "Pymnet.C140_coefficient",
    "Pymnet.C140_false_one",
    "Pymnet.C140_agrees"
   ],
   "note": "For a categorical coupling of weight 1. False with one node: ValueError (C140_false_one). With two layers returnCVector has no effect (part of C140_coefficient)."
  },
  {
   "property": "C141",
   "status": "partial",
   "theorems": [
    "Pymnet.C141_moreno2",
    "Pymnet.C141_false_nan",
    "Pymnet.C141_agrees"
   ],
   "note": "For a categorical coupling of weight 1, at least two nodes and one layer, and possible cycles within a layer and on two layers. Without such cycles the value is not a number (C141_false_nan)."
  },
  {
   "property": "C142",
   "status": "proved",
   "theorems": [
    "Pymnet.C142_moreno",
    "Pymnet.C142_sum"
   ],
   "note": "For a categorical coupling of weight 1."
  },
  {
   "property": "C143",
   "status": "proved",
   "theorems": [
    "Pymnet.C143_lists",
    "Pymnet.C143_agrees"
   ],
   "note": "The comparison with gcc_aw_vector_adj is for a coupling of weight 1 and at least two nodes, as in C140."
  },
  {
   "property": "C144",
   "status": "partial",
   "theorems": [
    "Pymnet.C144_false_gcc",
    "Pymnet.C144_gcc_partial",
    "Pymnet.C144_gcc_lcc_partial",
    "Pymnet.C144_layers_partial",
    "Pymnet.C144_false_layers"
   ],
   "note": "False in Python 3, where len of the result of map or filter raises: C144_false_gcc (every call), C144_false_layers (every call). Proved for Python 2 (C144_gcc_partial, C144_gcc_lcc_partial, C144_layers_partial), with ZeroDivisionError where a layer has no pair of neighbours."
  },
  {
   "property": "C145",
   "status": "proved",
   "theorems": [
    "Pymnet.C145_matrix",
    "Pymnet.C145_symmetric",
    "Pymnet.C145_entries",
    "Pymnet.C145_order"
   ],
   "note": "Of scipy.stats.spearmanr and numpy.corrcoef the documented result in exact numbers is modelled; the theorems compare it with an independent definition of Spearman's correlation."
  },
  {
   "property": "C146",
   "status": "partial",
   "theorems": [
    "Pymnet.C146_false_argument",
    "Pymnet.C146_false_overwritten",
    "Pymnet.C146_false_ones",
    "Pymnet.C146_false_two",
    "Pymnet.C146_false_names"
   ],
   "note": "False: C146_false_argument (a row is added to the caller's frame), C146_false_ones (nan instead of a matrix if one of the first two orbits has count 1 everywhere), C146_false_two (a number for two orbits), C146_false_overwritten and C146_false_names (a node called n_rows loses its counts). What holds is C145."
  },
  {
   "property": "C147",
   "status": "partial",
   "theorems": [
    "Pymnet.C147_scaled",
    "Pymnet.C147_area",
    "Pymnet.C147_degree",
    "Pymnet.C147_dict",
    "Pymnet.C147_labels",
    "Pymnet.C147_false_name",
    "Pymnet.C147_false_order",
    "Pymnet.C147_false_f"
   ],
   "note": "Proved except for the last clause: the documented rule 'name' raises for node sizes (C147_false_name), the rule 'order' needs a sequence (C147_false_order), and the rule 'f' never calls the function (C147_false_f)."
  },
  {
   "property": "C148",
   "status": "partial",
   "theorems": [
    "Pymnet.C148_layout_partial",
    "Pymnet.C148_interconnected",
    "Pymnet.C148_false_interconnected",
    "Pymnet.C148_interconnected_given",
    "Pymnet.C148_empty"
   ],
   "note": "Proved for networks that are not fully interconnected, up to a ZeroDivisionError (C148_layout_partial). False for fully interconnected networks: the keys are (node,'all') (C148_interconnected, C148_false_interconnected). The square root is an arbitrary function."
  },
  {
   "property": "C149",
   "status": "partial",
   "theorems": [
    "Pymnet.C149_default",
    "Pymnet.C149_refused",
    "Pymnet.C149_aggregate_into_partial",
    "Pymnet.C149_false"
   ],
   "note": "The default and the refusal are proved for all inputs; what is added is proved without self-edges and with missing value zero (C149_aggregate_into_partial), for every combination of directions: a directed source and an undirected target sum both directions. False for an undirected source and a directed target: each edge is written in one direction only (C149_false); proved is what both directions gain together."
  },
  {
   "property": "C150",
   "status": "partial",
   "theorems": [
    "Pymnet.C150_flatten_partial",
    "Pymnet.C150_false_uncoupled",
    "Pymnet.C150_false_unknown",
    "Pymnet.C150_false_nonaligned"
   ],
   "note": "Proved for node-aligned networks, directed or not, with absent weight 0 and any number of categorical and ordinal couplings of nonzero weight (layers of ordinal aspects are integers), without self-links written through an intra-layer network, for selections of existing names only, into empty general networks that are node-aligned or not (C150_flatten_partial). Missing: such self-links. False otherwise: with uncoupled layers some selections raise an Exception (copying everything does not), unknown nodes are added, and networks that are not node-aligned can raise a TypeError or lose couplings (C150_false_uncoupled, C150_false_unknown, C150_false_nonaligned)."
  },
  {
   "property": "C151",
   "status": "partial",
   "theorems": [
    "Pymnet.C151_page_partial",
    "Pymnet.C151_aspects",
    "Pymnet.C151_false_apostrophe",
    "Pymnet.C151_false_quotation",
    "Pymnet.C151_false_script"
   ],
   "note": "Proved for names that are integers or strings without control characters, quotes, backslash and '<' (C151_page_partial), and AssertionError for two or more aspects (C151_aspects). False for strings with an apostrophe, a quotation mark or '</script>' (C151_false_apostrophe, C151_false_quotation, C151_false_script). Missing: the other names with control characters, a backslash or '<', and weights that are not integers."
  },
  {
   "property": "C152",
   "status": "proved",
   "theorems": [
    "Pymnet.C152_text"
   ],
   "note": "Proved for names that are integers or strings (of characters that are not surrogates) and integer weights. JSON is specified by a reader in Spec/Json.lean."
  },
  {
   "property": "C153",
   "status": "partial",
   "theorems": [
    "Pymnet.C153_nodelists_partial",
    "Pymnet.C153_enough",
    "Pymnet.C153_refused",
    "Pymnet.C153_network_partial",
    "Pymnet.C153_false_python3"
   ],
   "note": "Proved for Python 2 (C153_nodelists_partial, C153_enough, C153_refused, C153_network_partial). False in Python 3, where every call with at least one layer raises NameError because there is no xrange (C153_false_python3). The arguments are natural numbers."
  },
  {
   "property": "C154",
   "status": "proved",
   "theorems": [
    "Pymnet.C154_refused",
    "Pymnet.C154_same_answer",
    "Pymnet.C154_same_multiplex",
    "Pymnet.C154_bliss"
   ],
   "note": "The answers are proved for general and for multiplex networks (C154_same_answer, C154_same_multiplex), complete invariants and generators for general networks (C154_bliss). What a correct backend finds is specified by Spec.FindsIso, Spec.FindsGens and Spec.Canonical."
  },
  {
   "property": "C155",
   "status": "partial",
   "theorems": [
    "Pymnet.C155_hash_partial",
    "Pymnet.C155_false_order",
    "Pymnet.C155_false_deleted",
    "Pymnet.C155_false_multiplex"
   ],
   "note": "Proved: general networks can be hashed, networks with the same hash are == (unless pickles collide), and adding what is there already keeps the hash (C155_hash_partial). False: equal networks with their links written in another order, or with a deleted link, have different hashes (C155_false_order, C155_false_deleted), and multiplex networks cannot be hashed in Python 3 (C155_false_multiplex). Pickling and the hash of byte strings are arguments."
  },
  {
   "property": "C156",
   "status": "proved",
   "theorems": [
    "Pymnet.C156_subnet_twice",
    "Pymnet.C156_multiplex"
   ],
   "note": "Proved for general networks, and for multiplex networks whose couplings are not networks if the listed layers exist."
  },
  {
   "property": "C157",
   "status": "proved",
   "theorems": [
    "Pymnet.C157_relabel_twice",
    "Pymnet.C157_multiplex"
   ],
   "note": "Proved for general networks, and for multiplex networks whose couplings are not networks without self-links written through an intra-layer network."
  },
  {
   "property": "C158",
   "status": "proved",
   "theorems": [
    "Pymnet.C158_multiplex",
    "Pymnet.C158_multiplisoOps_relabels",
    "Pymnet.C158_relabel_isomorphic",
    "Pymnet.C158_get_isomorphism_relabels"
   ],
   "note": "Proved for general networks; the second half for networks with the same alignment and missing value, and all aspects allowed to change. Both halves also for undirected multiplex networks with missing value 0 and categorical or ordinal couplings that are node-aligned, or have one aspect with categorical couplings, without self-links written through an intra-layer network; the first half if the layers of ordinal aspects keep their names, the second for networks with the same couplings and all links inside of layers of one weight."
  },
  {
   "property": "C159",
   "status": "proved",
   "theorems": [
    "Pymnet.C159_aggregate_twice"
   ],
   "note": "Proved for general networks without self-links in the aggregation (the default). The two results are also == if the network is node-aligned or at most one aspect is left."
  },
  {
   "property": "C160",
   "status": "proved",
   "theorems": [
    "Pymnet.C160_threshold_commutes",
    "Pymnet.C160_threshold_subnet",
    "Pymnet.C160_threshold_relabel",
    "Pymnet.C160_multiplex_commutes",
    "Pymnet.C160_multiplex_relabel",
    "Pymnet.C160_multiplex_subnet"
   ],
   "note": "Proved for node-aligned general networks (for the others threshold raises NameError, C32). Also for node-aligned multiplex networks with missing value 0 and categorical or ordinal couplings, without self-links written through an intra-layer network (selections whose listed layers exist, renamings that keep the names of layers of ordinal aspects)."
  },
  {
   "property": "C161",
   "status": "partial",
   "theorems": [
    "Pymnet.C161_subnet_aggregate_partial",
    "Pymnet.C161_false",
    "Pymnet.C161_multiplex_partial"
   ],
   "note": "Proved for general networks that are node-aligned or of which every node is on a layer; and for multiplex networks with missing value 0 and categorical or ordinal couplings that are node-aligned, or have one aspect with categorical couplings and every node on a layer, without self-links written through an intra-layer network. False otherwise: subnet leaves out nodes on no layer."
  },
  {
   "property": "C162",
   "status": "proved",
   "theorems": [
    "Pymnet.C162_relabel_aggregate",
    "Pymnet.C162_multiplex"
   ],
   "note": "Proved for general networks, without self-links in the aggregation (the default); and for multiplex networks with missing value 0 and categorical or ordinal couplings that are node-aligned, or have one aspect with categorical couplings, without self-links written through an intra-layer network, the layers of ordinal aspects getting integer names."
  },
  {
   "property": "C163",
   "status": "proved",
   "theorems": [
    "Pymnet.C163_keys"
   ],
   "note": "Proved for all multiplex networks made by calls."
  },
  {
   "property": "C164",
   "status": "partial",
   "theorems": [
    "Pymnet.C164_pop_partial",
    "Pymnet.C164_update_partial",
    "Pymnet.C164_false_del",
    "Pymnet.C164_false_clear"
   ],
   "note": "pop and setdefault return what they should, update replaces the layers of node-aligned networks. False: deleting does nothing, pop leaves the layer, and clear never ends if there is a layer."
  },
  {
   "property": "C165",
   "status": "partial",
   "theorems": [
    "Pymnet.C165_false_links",
    "Pymnet.C165_false",
    "Pymnet.C165_nodes_partial"
   ],
   "note": "False: reading a link between node-layers raises a NameError for every network, writing one an AttributeError. Node-layers can be looked up exactly in networks without aspects (proved)."
  },
  {
   "property": "C166",
   "status": "proved",
   "theorems": [
    "Pymnet.C166_equivalence",
    "Pymnet.C166_equal",
    "Pymnet.C166_multiplex_equivalence",
    "Pymnet.C166_multiplex_equal"
   ],
   "note": "Proved for general networks (for == with the same alignment) and for multiplex networks; the outcome is also the same if it is an AssertionError."
  },
  {
   "property": "C167",
   "status": "proved",
   "theorems": [
    "Pymnet.C167_degrees",
    "Pymnet.C167_density",
    "Pymnet.C167_multiplex"
   ],
   "note": "Proved for general and multiplex networks; the density for node-aligned networks without self-links and with two or more node-layers (others raise an exception, C36_raises)."
  },
  {
   "property": "C168",
   "status": "proved",
   "theorems": [
    "Pymnet.C168_distances",
    "Pymnet.C168_multiplex"
   ],
   "note": "Proved for general and multiplex networks and for any two heaps, one for each run."
  },
  {
   "property": "C169",
   "status": "proved",
   "theorems": [
    "Pymnet.C169_subnet",
    "Pymnet.C169_threshold",
    "Pymnet.C169_multiplex_threshold",
    "Pymnet.C169_multiplex_subnet"
   ],
   "note": "Proved for general and multiplex networks; thresholds for node-aligned ones (others raise a NameError, C32_false)."
  },
  {
   "property": "C170",
   "status": "proved",
   "theorems": [
    "Pymnet.C170_triangle",
    "Pymnet.C170_symmetric",
    "Pymnet.C170_multiplex"
   ],
   "note": "Proved for general and multiplex networks."
  }
 ]
}