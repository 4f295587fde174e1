{
 "C01": "Full. Refinement to the history over every sequence of add_node/add_layer/assignment calls.",
 "C05": "False of the code after deletions (C05_false). Exact value proved for every history (C05_total_degree_exact); the documented value for histories without deletions and for restricted degrees.",
 "C07": "False of the code for undirected self-links (C07_false). The exact raising condition and the effect are proved for every history.",
 "C11": "False of the code (C11_false): net.py 498 uses item[2*i] instead of item[2*i+1].",
 "C14": "False of the code for operands of different alignment (C14_false); proved iff for equal alignment.",
 "C18": "Full, for any couplings, noEdge and alignment.",
 "C19": "Full: the error and the frame are proved for every history; layers or nodes the rejected call registers read 0.",
 "C20": "Full for the stated quantifier.",
 "C21": "Full for the stated quantifier (mixed ordinal/categorical).",
 "C22": "False of the code for ordinal couplings and for several aspects (C22_false_ordinal, C22_false_categorical). Proved for one categorical aspect.",
 "C23": "False of the code: reading an inter-layer link raises (C23_false, for every history). Iteration proved.",
 "C24": "False of the code for noEdge other than 0 (C24_false). The exact behaviour is proved; it is the property when noEdge is 0.",
 "C25": "Full.",
 "C49": "False of the code (C49_false); proved for histories without such writes.",
 "C50": "Full for the stated quantifier.",
 "C51": "Full.",
 "C52": "False of the code (C52_false); the exact difference is proved for categorical couplings.",
 "C53": "False of the code (C53_false); proved for restrictions that agree with the node-layer's own indices.",
 "C26": "Full without self-edges and for directed networks. With selfEdges on undirected networks it is false when weights cancel (C26_false); proved for non-negative weights.",
 "C27": "Full for the stated quantifier; also directed general networks without intra-layer self-links, and undirected multiplex networks with any coupling.",
 "C28": "Links, node-layers and layers: full. False for nodes on no layer of a non-aligned network (C28_false); the exact node set is proved.",
 "C29": "False for nodes on no layer of a non-aligned network (C29_false) and when add_node was given an incomplete layer tuple (C29_false_short); in all other cases the copy looks the same and is == to the network, for any number of aspects (C29_copy_full). The model copies values, so aliasing between copy and original is not expressible.",
 "C30": "Proved for all networks; == after relabelling back is false when add_node was given an incomplete layer tuple (C30_false_short) and proved otherwise, for any number of aspects (C30_back_full).",
 "C31": "Full.",
 "C32": "False for every non-aligned network with a node-layer (C32_false: NameError). Full for aligned general networks; aligned multiplex networks with categorical or ordinal couplings.",
 "C33": "Full.",
 "C34": "Full for general networks; multiplex networks in the cases of C20-C22.",
 "C54": "Full for the stated quantifier.",
 "C35": "Full: general networks (directed and undirected) and undirected multiplex networks.",
 "C36": "Full: density over the rationals; general and multiplex networks; the raising cases are proved exactly.",
 "C37": "Full, for every heap tie-breaking; ties are assumed not to raise. General and multiplex networks.",
 "C38": "The property is false: C38_false. C38_terminates_partial characterises termination exactly for non-negative weights.",
 "C41": "True iff isomorphic, for every correct backend; general and multiplex networks with at least one aspect. False as stated: AssertionError instead of False when the numbers of colours differ (C41_raises, C41_false), and networks without aspects get a wrong graph (C41_false_monoplex).",
 "C55": "Full for the stated quantifier, for every correct backend. A non-isomorphic pair gives None or the AssertionError of C41.",
 "C56": "Full for the stated quantifier, for every canonical form.",
 "C57": "Full for the stated quantifier, for every correct backend.",
 "C42": "Full, for families of non-empty sets (the function rejects sizes below 1).",
 "C43": "Full for one-aspect networks: every documented combination of arguments. Connectivity is tested by networkx: assumed correct (TestsConnected, shown satisfiable).",
 "C58": "All documented usages, both modes, all draws and pop orders. In copy mode (default) only for noEdge=0 and networks without self-links; negations proved for both. Undirected networks.",
 "C39": "Full; self-links are also covered.",
 "C40": "Contractions: full, general one-aspect networks, directed or not. Barrett: equal when the undefined value is 0 (default), for categorical couplings or node-aligned networks; false for other undefined values (C40_false_undefined) and, for the optimised variant, with negative weights (C40_false_negative).",
 "C59": "Full for the stated quantifier.",
 "C60": "Full for the stated quantifier.",
 "C61": "The formula the code computes is proved for general (directed or not) and multiplex networks; it is the documented one divided by b-1 (b-2), so the documented formula and value are false (C61_false_documented).",
 "C62": "The formula is proved for all such networks (docs: <= t should be >= t). The variant with the aggregated network agrees on unweighted networks and is false with weights (C62_false_weighted).",
 "C63": "Full; the aggregated variant for non-negative weights. The docs say the edges of the aggregated network are counted; the code counts those of the layer.",
 "C64": "o2 and o_full proved equal; gcc_contraction_o differs with more than one layer (C64_false_o).",
 "C65": "Full; gcc_super_graph of multiplex networks: node-aligned, categorical or ordinal couplings.",
 "C46": "Full: for arbitrary generators, and end to end from the network for general and multiplex networks (backend assumed to return generators, Spec.FindsGens).",
 "C47": "Full.",
 "C66": "Full, for general and multiplex networks (backend assumed to return generators).",
 "C67": "Proved where xrange is defined; in Python 3 the call always raises NameError (C67_false).",
 "C68": "Full.",
 "C48": "False when the wrapped function raises (C48_false: networkx.Graph stays replaced for good). Proved for every call that returns or is rejected, for arbitrary wrapped functions, and for sequences of calls.",
 "C44": "Full: bijection of the index formula over the reals, and the exact number of links for every sample, for er with edges in all four argument forms.",
 "C45": "Full for the stated quantifier; full(1,...) is empty (C45_one_node).",
 "C69": "False for p=0 (C69_false_zero). Proved for 0<p<=1: structure, link selection for every sequence of random numbers, and the exact interval of random numbers for each gap. Probability measures are not formalised.",
 "C70": "The links are exact for every outcome (C70_er_multilayer); nodes and layers without links are missing (C70_false_nodes).",
 "C71": "Full. The preference is stated on the list from which the code samples uniformly.",
 "C72": "The aggregated network is exact (C72_overlaps); the number of links per layer is false of the code (C72_false_layer_edges), its exact value is proved.",
 "C73": "Full, with exceptions and completeness.",
 "C74": "Full.",
 "C75": "False of the code (C75_false_small, C75_false_triangle); C75_returns_partial: it returns if the shuffled stubs need no repairs.",
 "C76": "Full, for undirected networks.",
 "C77": "Full, with exceptions and completeness. Termination fails as for C75.",
 "C78": "False of the code (C78_false_nodes); the exact nodes and layers are proved (C78_nodes_partial).",
 "C79": "Full for categorical couplings (node-aligned sums without a node are C81).",
 "C80": "Full for categorical couplings.",
 "C81": "False of the code for weighted networks (C81_false_weights); proved for links of weight 1.",
 "C82": "False of the code for weighted node-aligned networks (C82_false_weights); proved for networks that are not node-aligned and for links of weight 1.",
 "C83": "False of the code (C83_false_ordinal). For categorical couplings C79 is the full statement.",
 "C84": "Full; network couplings are C86.",
 "C85": "Full; network couplings are C86.",
 "C86": "False of the code: C86_false_subnet, C86_false_relabel.",
 "C87": "Full; the isomorphism backend's canonical form and str are parameters (Spec.Canonical, injective).",
 "C88": "Full, as C87.",
 "C89": "Full, as C87.",
 "C90": "Full.",
 "C91": "Full; the graph library (isomorphisms, canonical forms, generators of automorphisms) and str are parameters.",
 "C92": "Full, as C91.",
 "C93": "False of the code (C93_false: every link reads 0 afterwards); nodes and layers stay.",
 "C94": "Full, as C91.",
 "C95": "Full for undirected general networks with an aspect; directed networks without deletions (C95_directed_partial: C05 makes total degrees wrong after deletions); undirected node-aligned multiplex networks (C95_multiplex_partial); undirected multiplex networks with one aspect and categorical couplings, node-aligned or not, if the sources name existing layers and nodes that are on some layer (C95_multiplex_unaligned_partial). Termination is stated exactly. Recursion limit larger than the number of node-layers.",
 "C96": "Full (degrees: undirected networks).",
 "C97": "False of the code (C97_false: NameError for every multiplex network).",
 "C98": "C98_edge_files and C98_bad_line for the links; false of the code for self-links with ignoreSelfLink=False (C98_false_selflinks) and the layer and node files (C98_false_files).",
 "C99": "Full.",
 "C100": "C100_edge_files, C100_rows; the round trip is false of the code (C100_false_roundtrip), as is the separation of layers with equal text (C100_false_overwritten).",
 "C101": "Partial theorems for separate and embedded labels, one and several levels, with the meaning of the weights in C101_linked and C101_symmetric; the other clauses are false of the code (C101_false_…). Files with a wrong number of rows give no network (C101_row_number, C101_row_number_embedded).",
 "C102": "Full.",
 "C103": "C103_split is what holds: every equation in one set, dependent ones follow under a condition on equations of three orbits; the other clauses are false (C103_false_three, C103_false_independent).",
 "C104": "C104_best_partial; if there is no dependent equation the call raises (C104_false_none).",
 "C105": "Full; linear independence over the rationals in C105_linear.",
 "C106": "C106_redundant describes both endings; independence of the order is false (C106_false_order).",
 "C107": "Full, for tables made by graphlets and automorphism_orbits.",
 "C108": "Full: C108_product (all orbits of at least the larger size) and C108_equation (the form of the equations). The generation of the orbits of an equation by orbit_equations itself is not modelled.",
 "C109": "Full.",
 "C110": "False in Python 3 (C110_false); where xrange is defined the value is exactly described (C110_disjoint_partial) and differs from the number needed (C110_false_disjoint).",
 "C111": "Full.",
 "C112": "False when nodes or layers are removed (C112_false) and for node-aligned multiplex networks with couplings (C112_false_multiplex). Proved: every sub-network is yielded (C112_every_partial), and with nothing but links removed exactly the spanning sub-networks, each once (C112_spanning_partial), for general networks.",
 "C113": "Proved for node-aligned networks (C113_assign_partial); errors for all (C113_errors). False for networks that are not node-aligned (C113_false).",
 "C115": "Proved for attributes that start with the weight and links between different nodes (C115_set_partial, C115_cell, C115_delete_partial, C115_row_partial). False in general: C115_false, C115_delete_missing, C115_self, C115_row_false.",
 "C116": "For any permutation as outcome of each shuffle; raises for networks with other than one aspect and for couplings that are networks (C116_errors).",
 "C118": "With n < 2 an exception is raised (C118_small). networkx is assumed to return graphs and to keep given positions.",
 "C119": "With the number of neighbors the code asks for; that the layer then has the required number of edges only if n divides it is C119_false_edges.",
 "C120": "For tables made by the modelled graphlets and automorphism_orbits (Spec.Prepared); node names are integers.",
 "C121": "Proved for n up to 5 and graphlets whose layers keep their names (or with one layer), and for n up to 4, any allowed aspects, any number of layers and any coupling that is not ordinal. Missing: with 6 nodes, merge_nodes keeps one of several isomorphic merged graphlets although different links can be added to them, so terms are missing; with 5 nodes and three layers that may be renamed, combine_orbits does not try all permutations.",
 "C122": "Proved for general networks with at least one aspect and a total weight other than zero (C122_modularity_partial). False without aspects (C122_false_no_aspects: the constructor raises) and for layers without links (C122_false_layer_without_links: ZeroDivisionError). Numbers are exact.",
 "C123": "For general networks with a total weight other than zero; without total weight the constructor divides by zero. Numbers are exact.",
 "C124": "Proved for the unit square, with the exact conditions for the exceptions (C124_normalize_partial, C124_flat, C124_empty). False for other boxes: boxSize is ignored (C124_false_box). Numbers are exact.",
 "C125": "With aligned nodes, for general networks. Proved: coordinates for exactly the nodes that fill the unit square, with fixed nodes in the same relative positions, or a ZeroDivisionError, which is certain for a single node (C125_one_node). False for other boxes, fixed nodes, nodes on no layer, and fully interconnected networks with several aspects. The square root is an arbitrary function; alignedNodes=False is C148.",
 "C126": "Proved for general networks with one aspect (C126_figure_partial) and multiplex networks with categorical or, if node-aligned, ordinal couplings (C126_multiplex_partial); in directed networks links are also drawn in the direction in which there is none (C126_false).",
 "C127": "Numbers are exact.",
 "C128": "False: only nodes have their second and third coordinate multiplied by 10 (C128_false); exact condition in C128_ends_partial.",
 "C129": "Proved for random, and for fr with aligned nodes. False for fr without aligned nodes (C129_false). The layouts of networkx are a parameter.",
 "C130": "Proved, except that a rule that gives None is not followed by the default (C130_false_default). Not modelled: colormaps. Node sizes are in C147.",
 "C131": "Proved for dictionaries and the rules edgetype, edgeweight and layer; false for the rule order (C131_false).",
 "C132": "Proved over an ordered field with a cube root; numbers are exact.",
 "C133": "Proved over the reals. GCM (numpy and scipy) is not modelled.",
 "C134": "Proved for strings, tuples with the weights given, networks and lists of these.",
 "C135": "Reading and degrees proved; iterating neighbours raises TypeError and strengths raise IndexError in every such network (C135_false_iter, C135_false_strength).",
 "C136": "False for couplings=None, the default: the strength raises IndexError (C136_false). Proved for the string 'none'.",
 "C137": "Proved for graphlets up to three nodes, where all equations are independent and returned (C137_three_partial). False for two nodes: UnboundLocalError (C137_false_two). False in Python 3 for four or more nodes on all of two or more layers: no call returns, because xrange is used (C137_false_four). Not proved: what the call returns in Python 2 for four or more nodes.",
 "C138": "For the equations that orbit_equations makes from tables made by graphlets.",
 "C139": "For a categorical coupling of weight 1 and at least two nodes. False with one node: ValueError (C139_false_one). False in node-aligned networks with other coupling weights: AssertionError (C139_false_coupling). Numbers are elements of a field, not floating point numbers, so rounding cannot make an assertion fail in the model.",
 "C140": "For a categorical coupling of weight 1. False with one node: ValueError (C140_false_one). With two layers returnCVector has no effect (part of C140_coefficient).",
 "C141": "For a categorical coupling of weight 1, at least two nodes and one layer, and possible cycles within a layer and on two layers. Without such cycles the value is not a number (C141_false_nan).",
 "C142": "For a categorical coupling of weight 1.",
 "C143": "The comparison with gcc_aw_vector_adj is for a coupling of weight 1 and at least two nodes, as in C140.",
 "C144": "False in Python 3, where len of the result of map or filter raises: C144_false_gcc (every call), C144_false_layers (every call). Proved for Python 2 (C144_gcc_partial, C144_gcc_lcc_partial, C144_layers_partial), with ZeroDivisionError where a layer has no pair of neighbours.",
 "C145": "Of scipy.stats.spearmanr and numpy.corrcoef the documented result in exact numbers is modelled; the theorems compare it with an independent definition of Spearman's correlation.",
 "C146": "False: C146_false_argument (a row is added to the caller's frame), C146_false_ones (nan instead of a matrix if one of the first two orbits has count 1 everywhere), C146_false_two (a number for two orbits), C146_false_overwritten and C146_false_names (a node called n_rows loses its counts). What holds is C145.",
 "C147": "Proved except for the last clause: the documented rule 'name' raises for node sizes (C147_false_name), the rule 'order' needs a sequence (C147_false_order), and the rule 'f' never calls the function (C147_false_f).",
 "C148": "Proved for networks that are not fully interconnected, up to a ZeroDivisionError (C148_layout_partial). False for fully interconnected networks: the keys are (node,'all') (C148_interconnected, C148_false_interconnected). The square root is an arbitrary function.",
 "C149": "The default and the refusal are proved for all inputs; what is added is proved without self-edges and with missing value zero (C149_aggregate_into_partial), for every combination of directions: a directed source and an undirected target sum both directions. False for an undirected source and a directed target: each edge is written in one direction only (C149_false); proved is what both directions gain together.",
 "C150": "Proved for node-aligned networks, directed or not, with absent weight 0 and any number of categorical and ordinal couplings of nonzero weight (layers of ordinal aspects are integers), without self-links written through an intra-layer network, for selections of existing names only, into empty general networks that are node-aligned or not (C150_flatten_partial). Missing: such self-links. False otherwise: with uncoupled layers some selections raise an Exception (copying everything does not), unknown nodes are added, and networks that are not node-aligned can raise a TypeError or lose couplings (C150_false_uncoupled, C150_false_unknown, C150_false_nonaligned).",
 "C151": "Proved for names that are integers or strings without control characters, quotes, backslash and '<' (C151_page_partial), and AssertionError for two or more aspects (C151_aspects). False for strings with an apostrophe, a quotation mark or '</script>' (C151_false_apostrophe, C151_false_quotation, C151_false_script). Missing: the other names with control characters, a backslash or '<', and weights that are not integers.",
 "C152": "Proved for names that are integers or strings (of characters that are not surrogates) and integer weights. JSON is specified by a reader in Spec/Json.lean.",
 "C153": "Proved for Python 2 (C153_nodelists_partial, C153_enough, C153_refused, C153_network_partial). False in Python 3, where every call with at least one layer raises NameError because there is no xrange (C153_false_python3). The arguments are natural numbers.",
 "C154": "The answers are proved for general and for multiplex networks (C154_same_answer, C154_same_multiplex), complete invariants and generators for general networks (C154_bliss). What a correct backend finds is specified by Spec.FindsIso, Spec.FindsGens and Spec.Canonical.",
 "C155": "Proved: general networks can be hashed, networks with the same hash are == (unless pickles collide), and adding what is there already keeps the hash (C155_hash_partial). False: equal networks with their links written in another order, or with a deleted link, have different hashes (C155_false_order, C155_false_deleted), and multiplex networks cannot be hashed in Python 3 (C155_false_multiplex). Pickling and the hash of byte strings are arguments.",
 "C156": "Proved for general networks, and for multiplex networks whose couplings are not networks if the listed layers exist.",
 "C157": "Proved for general networks, and for multiplex networks whose couplings are not networks without self-links written through an intra-layer network.",
 "C158": "Proved for general networks; the second half for networks with the same alignment and missing value, and all aspects allowed to change. Both halves also for undirected multiplex networks with missing value 0 and categorical or ordinal couplings that are node-aligned, or have one aspect with categorical couplings, without self-links written through an intra-layer network; the first half if the layers of ordinal aspects keep their names, the second for networks with the same couplings and all links inside of layers of one weight.",
 "C159": "Proved for general networks without self-links in the aggregation (the default). The two results are also == if the network is node-aligned or at most one aspect is left.",
 "C160": "Proved for node-aligned general networks (for the others threshold raises NameError, C32). Also for node-aligned multiplex networks with missing value 0 and categorical or ordinal couplings, without self-links written through an intra-layer network (selections whose listed layers exist, renamings that keep the names of layers of ordinal aspects).",
 "C161": "Proved for general networks that are node-aligned or of which every node is on a layer; and for multiplex networks with missing value 0 and categorical or ordinal couplings that are node-aligned, or have one aspect with categorical couplings and every node on a layer, without self-links written through an intra-layer network. False otherwise: subnet leaves out nodes on no layer.",
 "C162": "Proved for general networks, without self-links in the aggregation (the default); and for multiplex networks with missing value 0 and categorical or ordinal couplings that are node-aligned, or have one aspect with categorical couplings, without self-links written through an intra-layer network, the layers of ordinal aspects getting integer names.",
 "C163": "Proved for all multiplex networks made by calls.",
 "C164": "pop and setdefault return what they should, update replaces the layers of node-aligned networks. False: deleting does nothing, pop leaves the layer, and clear never ends if there is a layer.",
 "C165": "False: reading a link between node-layers raises a NameError for every network, writing one an AttributeError. Node-layers can be looked up exactly in networks without aspects (proved).",
 "C166": "Proved for general networks (for == with the same alignment) and for multiplex networks; the outcome is also the same if it is an AssertionError.",
 "C167": "Proved for general and multiplex networks; the density for node-aligned networks without self-links and with two or more node-layers (others raise an exception, C36_raises).",
 "C168": "Proved for general and multiplex networks and for any two heaps, one for each run.",
 "C169": "Proved for general and multiplex networks; thresholds for node-aligned ones (others raise a NameError, C32_false).",
 "C170": "Proved for general and multiplex networks."
}