{"id": "C01", "title": "Reading a link returns the last value written to it", "statement": "After any history of add_node, add_layer and net[...]=w calls on a MultilayerNetwork (including calls that raise and are caught), reading net[link] returns the value of the last write to that link (in an undirected network: to that link in either orientation), and the network's noEdge value if the link was never written. Writing one link never changes what is read for any other link.", "quantifier": "all networks (any number of aspects, directed or not, node-aligned or not, any noEdge), all histories of API calls, all links", "why_tests_cant": "Tests replay a handful of histories; the claim is a refinement of every history of writes, overwrites and deletions to an abstract map.", "anchors": ["pymnet/net.py:MultilayerNetwork.__setitem__", "pymnet/net.py:MultilayerNetwork.__getitem__", "pymnet/net.py:MultilayerNetwork._set_link", "pymnet/net.py:MultilayerNetwork._get_link"]}
{"id": "C02", "title": "Undirected networks stay symmetric", "statement": "In an undirected MultilayerNetwork net[i,j,s1,r1,...]==net[j,i,r1,s1,...] for every pair of node-layers after every history of calls.", "quantifier": "all undirected networks, all histories, all pairs of node-layers", "why_tests_cant": "Symmetry is an invariant of the stored adjacency dicts; a test can only look at finitely many histories.", "anchors": ["pymnet/net.py:MultilayerNetwork._set_link", "pymnet/net.py:MultilayerNetwork._get_link"]}
{"id": "C03", "title": "Neighbour iteration lists exactly the existing links, once each", "statement": "iter_out of a node-layer yields exactly the node-layers u such that the link from it to u reads as something other than noEdge, each exactly once; iter_in the same for incoming links; plain iteration / iter_total yields the union of the two, each node-layer once. With index restrictions only the neighbours matching every restricted index are yielded.", "quantifier": "all networks, all histories, all node-layers (also ones never added), all restrictions", "why_tests_cant": "Relates two independently maintained dictionaries (forward and reversed adjacency) over every history.", "anchors": ["pymnet/net.py:MultilayerNetwork._iter_neighbors_out", "pymnet/net.py:MultilayerNetwork._iter_neighbors_in_dir", "pymnet/net.py:MultilayerNetwork._iter_neighbors_total_dir", "pymnet/net.py:MultilayerNode.iter_total"]}
{"id": "C04", "title": "Degree is the number of neighbours", "statement": "deg (undirected), deg_out and deg_in of a node-layer equal the number of distinct node-layers it is linked to / from, with or without index restrictions.", "quantifier": "all networks, histories, node-layers and restrictions", "why_tests_cant": "Counting claim over all reachable states.", "anchors": ["pymnet/net.py:MultilayerNetwork._get_degree_out", "pymnet/net.py:MultilayerNetwork._get_degree_in_dir", "pymnet/net.py:MultilayerNode.deg"]}
{"id": "C05", "title": "Total degree of a directed network counts the distinct neighbours", "statement": "In a directed network deg_total()/deg() of a node-layer equals the number of distinct node-layers that are in- or out-neighbours. (False of the code after deleting an edge: the incrementally maintained counter of the edge's target is never decremented.)", "quantifier": "all directed networks, all histories, all node-layers", "why_tests_cant": "The counter is maintained incrementally, so its value depends on the whole history, not on the current links.", "anchors": ["pymnet/net.py:MultilayerNetwork._set_link", "pymnet/net.py:MultilayerNetwork._get_degree_total_dir", "pymnet/net.py:MultilayerNode.deg_total"]}
{"id": "C06", "title": "Strength is the sum of the weights of the links", "statement": "str_out/str_in/str of a node-layer equal the sum of the weights of the links to / from it, and the total strength of a directed network is the sum of in- and out-strength.", "quantifier": "all networks with weights in a commutative monoid, all histories, node-layers and restrictions", "why_tests_cant": "Sum over unboundedly many links in arbitrary iteration order.", "anchors": ["pymnet/net.py:MultilayerNetwork._get_strength_out", "pymnet/net.py:MultilayerNetwork._get_strength_in_dir", "pymnet/net.py:MultilayerNetwork._get_strength_total_dir"]}
{"id": "C07", "title": "Setting a link to noEdge removes it without an error", "statement": "net[link]=noEdge never raises for a link with the right number of indices, and afterwards the link reads noEdge and is not iterated. (False of the code: removing an existing self-link of an undirected network raises KeyError, although the link is removed.)", "quantifier": "all networks, all histories, all links", "why_tests_cant": "Absence of exceptions over every reachable state.", "anchors": ["pymnet/net.py:MultilayerNetwork._set_link"]}
{"id": "C08", "title": "Node and layer registries are exact", "statement": "iter_nodes/get_layers report exactly the nodes and elementary layers that were added explicitly or mentioned in an accepted link write; nothing is ever removed; every endpoint of every existing edge is a registered node with registered elementary layers.", "quantifier": "all networks, all histories", "why_tests_cant": "Registry invariant over every history, including writes of noEdge and writes that raise.", "anchors": ["pymnet/net.py:MultilayerNetwork.add_node", "pymnet/net.py:MultilayerNetwork.add_layer", "pymnet/net.py:MultilayerNetwork.__setitem__", "pymnet/net.py:MultilayerNetwork.iter_nodes", "pymnet/net.py:MultilayerNetwork.get_layers"]}
{"id": "C09", "title": "Index arity: the short form means equal layers and a wrong arity changes nothing", "statement": "net[i,j,s1,...,sd] reads and writes exactly what net[i,j,s1,s1,...,sd,sd] does. Reading or writing with any other number of indices raises KeyError and leaves the network unchanged.", "quantifier": "all networks, all index tuples of every length", "why_tests_cant": "Every tuple length and every number of aspects.", "anchors": ["pymnet/net.py:MultilayerNetwork.__getitem__", "pymnet/net.py:MultilayerNetwork.__setitem__", "pymnet/net.py:MultilayerNetwork._short_link_to_link"]}
{"id": "C10", "title": "Link tuples and node-layer pairs encode each other", "statement": "Converting two node-layers to a link tuple and back gives the two node-layers, and converting a link tuple of even length at least two to node-layers and back gives the tuple; node-layers of different lengths are rejected.", "quantifier": "all tuples of every length", "why_tests_cant": "Round trip for every length.", "anchors": ["pymnet/net.py:MultilayerNetwork._link_to_nodes", "pymnet/net.py:MultilayerNetwork._nodes_to_link"]}
{"id": "C11", "title": "Slicing restricts the visible links to the given indices", "statement": "net[i,j,s,:] is node i at layer s with only its links to node j visible, and net[i,:,s,r] the same node with only its links to layer r visible, as documented in __getitem__. (False of the code: the restriction is built from the node's own index instead of the requested one.)", "quantifier": "all networks, all node-layers and all slices", "why_tests_cant": "Holds or fails depending on the relation between the requested and own indices; must hold for all.", "anchors": ["pymnet/net.py:MultilayerNetwork.__getitem__", "pymnet/net.py:MultilayerNode"]}
{"id": "C12", "title": "net.edges yields every edge exactly once", "statement": "Iterating net.edges yields each link with value other than noEdge exactly once with its weight: for directed networks each ordered pair once, for undirected networks each unordered pair (self-links included) exactly once in one of its orientations.", "quantifier": "all networks, all histories, every iteration order of the underlying sets", "why_tests_cant": "Exactly-once enumeration for all network sizes and iteration orders.", "anchors": ["pymnet/net.py:MultilayerEdges.__iter__"]}
{"id": "C13", "title": "len(net.edges) is the number of edges iterated", "statement": "len(net.edges) equals the number of items net.edges yields (handshake lemma including self-links).", "quantifier": "all networks and histories", "why_tests_cant": "Double counting argument for all networks.", "anchors": ["pymnet/net.py:MultilayerEdges.__len__"]}
{"id": "C14", "title": "Equality of networks is equality of observable content", "statement": "net1==net2 holds iff both have the same direction, aspects, noEdge, alignment, node and layer sets (and node-layer sets when not node-aligned) and every link reads the same in both. It is an equivalence relation.", "quantifier": "all pairs of networks", "why_tests_cant": "The implementation compares only edge counts and one direction of the edge sets; completeness is a counting argument.", "anchors": ["pymnet/net.py:MultilayerNetwork.__eq__"]}
{"id": "C15", "title": "Node-layer bookkeeping of non-node-aligned networks", "statement": "In a non-node-aligned network iter_node_layers yields, once each, exactly the (node, layer) combinations added explicitly or touched by a link write; the nodes of a layer and the layers of a node are consistent views of the same relation; every endpoint of an edge is such a node-layer. In a node-aligned network iter_node_layers is the full Cartesian product.", "quantifier": "all networks, all histories", "why_tests_cant": "Two dictionaries mirrored over every history.", "anchors": ["pymnet/net.py:MultilayerNetwork._add_node_to_layer", "pymnet/net.py:MultilayerNetwork.iter_node_layers", "pymnet/net.py:MultilayerNetwork.iter_layers"]}
{"id": "C16", "title": "Adding nodes and layers is idempotent and leaves links alone", "statement": "add_node and add_layer never change what any link reads, degree, strength or edge iteration yields up to order; repeating a call changes nothing.", "quantifier": "all networks, histories and calls", "why_tests_cant": "Frame property for all states.", "anchors": ["pymnet/net.py:MultilayerNetwork.add_node", "pymnet/net.py:MultilayerNetwork.add_layer"]}
{"id": "C17", "title": "Access through node objects agrees with direct access", "statement": "net[u][v] reads and net[u][v]=w writes exactly the link from node-layer u to node-layer v, for every number of aspects.", "quantifier": "all networks, node-layers and weights", "why_tests_cant": "Every number of aspects.", "anchors": ["pymnet/net.py:MultilayerNode.__getitem__", "pymnet/net.py:MultilayerNode.__setitem__"]}
{"id": "C18", "title": "Multiplex intra-layer writes are seen and stay in their layer", "statement": "In a MultiplexNetwork net[i,j,s]=w with i!=j makes net[i,j,s] and net.A[s][i,j] read w, and changes no link in any other layer and no inter-layer link between existing layers of existing nodes.", "quantifier": "all multiplex networks (any aspects and couplings), histories and writes", "why_tests_cant": "Refinement over all histories.", "anchors": ["pymnet/net.py:MultiplexNetwork._set_link", "pymnet/net.py:MultiplexNetwork._get_link", "pymnet/net.py:MultiplexIntraNetDict"]}
{"id": "C19", "title": "Rejected multiplex writes change no link", "statement": "Writing a self-link or an inter-layer link in a MultiplexNetwork raises KeyError and no stored link changes.", "quantifier": "all multiplex networks, histories and rejected writes", "why_tests_cant": "All rejected writes in all states.", "anchors": ["pymnet/net.py:MultiplexNetwork._set_link", "pymnet/net.py:MultilayerNetwork.__setitem__"]}
{"id": "C20", "title": "Categorical couplings: links, neighbours, degree and strength agree (node-aligned)", "statement": "In a node-aligned multiplex network with categorical couplings, for a registered node-layer the iterated neighbours are exactly the node-layers to which the link reads non-noEdge, the degree is their number (intra-layer degree plus number of other elementary layers of each aspect) and the strength is the sum of their link weights.", "quantifier": "all node-aligned categorical multiplex networks with noEdge 0 and coupling weights other than 0, any number of aspects, after any history of calls that writes no self-link through an intra-layer network net.A[s]", "why_tests_cant": "Implicit inter-layer edges are computed by three separate pieces of code.", "anchors": ["pymnet/net.py:MultiplexNetwork._get_link", "pymnet/net.py:MultiplexNetwork._iter_dim", "pymnet/net.py:MultiplexNetwork._get_dim_degree", "pymnet/net.py:MultiplexNetwork._get_dim_strength"]}
{"id": "C21", "title": "Ordinal couplings: links, neighbours and degree agree (node-aligned)", "statement": "Same as C20 for ordinal couplings: the inter-layer neighbours are the node in the existing layers just above and below.", "quantifier": "all node-aligned multiplex networks with ordinal or categorical coupling in each aspect, noEdge 0, non-zero coupling weights, integer layer names in ordinal aspects, after any history without self-links written through net.A[s]", "why_tests_cant": "As C20.", "anchors": ["pymnet/net.py:MultiplexNetwork._get_link", "pymnet/net.py:MultiplexNetwork._iter_dim", "pymnet/net.py:MultiplexNetwork._get_dim_degree"]}
{"id": "C22", "title": "Couplings of non-node-aligned multiplex networks", "statement": "In a non-node-aligned multiplex network the iterated inter-layer neighbours of a node-layer are exactly the node-layers whose link reads non-noEdge, and degree counts them. (False of the code for ordinal couplings and for categorical couplings with more than one aspect.)", "quantifier": "all non-node-aligned multiplex networks with noEdge 0 and non-zero coupling weights, after any history without self-links written through net.A[s]", "why_tests_cant": "As C20.", "anchors": ["pymnet/net.py:MultiplexNetwork._iter_dim", "pymnet/net.py:MultiplexNetwork._get_dim_degree", "pymnet/net.py:MultiplexNetwork._get_link"]}
{"id": "C23", "title": "Uncoupled multiplex networks have no inter-layer links", "statement": "With coupling 'none' every inter-layer link reads noEdge and no inter-layer neighbour is iterated. (False of the code: reading such a link of an existing node raises an Exception.)", "quantifier": "all multiplex networks with coupling none", "why_tests_cant": "All links in all states.", "anchors": ["pymnet/net.py:MultiplexNetwork._get_link", "pymnet/net.py:MultiplexNetwork._iter_dim"]}
{"id": "C24", "title": "The noEdge value of a multiplex network is the value of its missing intra-layer links", "statement": "For a MultiplexNetwork constructed with any noEdge value, a link that was never written reads noEdge, and writing noEdge removes a link. (False of the code: intra-layer networks always use 0.)", "quantifier": "all noEdge values", "why_tests_cant": "All noEdge values.", "anchors": ["pymnet/net.py:MultiplexIntraNetDict._add_empty_network", "pymnet/net.py:MultiplexNetwork.__init__"]}
{"id": "C25", "title": "Multiplex node and layer registries", "statement": "The set of intra-layer networks is exactly the Cartesian product of the elementary layers; in a node-aligned multiplex network every layer has the same node set; in a non-aligned one a node is in the layer's node set iff it was added to or linked in that layer, and the per-node layer registry says the same.", "quantifier": "all multiplex networks, all histories", "why_tests_cant": "Mutual recursion between parent and layer networks over all histories.", "anchors": ["pymnet/net.py:MultiplexNetwork.add_layer", "pymnet/net.py:MultiplexNetwork._add_node_to_layer", "pymnet/net.py:MultilayerNetworkWithParent.add_node"]}
{"id": "C26", "title": "aggregate sums the weights of the edges that collapse onto each other", "statement": "For a network with noEdge 0, aggregate(net,aspects) reads, for every pair of distinct reduced node-layers, the sum of the weights of all edges of net whose endpoints reduce to that pair; all nodes are kept; self-links are created only with selfEdges.", "quantifier": "all networks, all subsets of aspects", "why_tests_cant": "Sum over unboundedly many edges, all subsets of aspects.", "anchors": ["pymnet/transforms.py:aggregate"]}
{"id": "C27", "title": "overlay_network sums the layers", "statement": "overlay_network of an undirected one-aspect network with no edge reads, for i!=j, the sum over layers of net[i,j,s,s].", "quantifier": "all one-aspect networks with totally ordered node names", "why_tests_cant": "All networks.", "anchors": ["pymnet/transforms.py:overlay_network"]}
{"id": "C28", "title": "subnet is the induced subnetwork", "statement": "subnet(net,nodes,*layers) of a general network reads net's value for links between selected node-layers and noEdge for all other links; its node and layer sets are the selected ones that exist in net. The result does not depend on which of the two copying strategies is chosen for a node.", "quantifier": "all networks and all selections", "why_tests_cant": "Two code paths chosen by a degree heuristic must agree for all inputs.", "anchors": ["pymnet/transforms.py:subnet"]}
{"id": "C29", "title": "subnet with everything selected is an equal copy", "statement": "subnet(net,None,...,None)==net, and modifying the copy does not change net.", "quantifier": "all networks", "why_tests_cant": "All networks.", "anchors": ["pymnet/transforms.py:subnet", "pymnet/net.py:MultilayerNetwork.__eq__"]}
{"id": "C30", "title": "relabel gives an isomorphic copy", "statement": "If the effective renaming is injective on the nodes and on each aspect's layers, relabel(net) reads at renamed indices what net reads at the original ones, has the renamed node and layer sets, and relabelling back yields a network equal to net.", "quantifier": "all networks and all injective renamings", "why_tests_cant": "All networks and maps.", "anchors": ["pymnet/transforms.py:relabel"]}
{"id": "C31", "title": "normalize is an order preserving bijection onto consecutive integers", "statement": "normalize renames the n nodes to nodeStart..nodeStart+n-1 and the b elementary layers of each aspect to layerStart..layerStart+b-1, preserving order, the returned index maps are mutually inverse, and links are carried along.", "quantifier": "all networks with sortable names", "why_tests_cant": "All networks.", "anchors": ["pymnet/transforms.py:normalize", "pymnet/transforms.py:relabel"]}
{"id": "C32", "title": "threshold keeps exactly the edges satisfying the rule", "statement": "threshold(net,t,method) has the node and layer sets of net and exactly the edges of net whose weight satisfies the rule, with unchanged weights. (False of the code for non-node-aligned networks with at least one node-layer: NameError.)", "quantifier": "all networks, thresholds and methods", "why_tests_cant": "All networks.", "anchors": ["pymnet/transforms.py:threshold"]}
{"id": "C33", "title": "Supra-adjacency matrix", "statement": "Entry (a,b) of the supra-adjacency matrix is the link value between the a-th and b-th listed node-layers, every node-layer is listed exactly once, and the matrix of an undirected network is symmetric. (For monoplex networks the diagonal is always zero, so self-links are lost.)", "quantifier": "all networks", "why_tests_cant": "All networks.", "anchors": ["pymnet/net.py:MultilayerNetwork.get_supra_adjacency_matrix"]}
{"id": "C34", "title": "get_underlying_graph preserves the graph structure", "statement": "The underlying graph has one node per node-layer and reads between the names of two node-layers what net reads between them.", "quantifier": "all networks and injective naming functions", "why_tests_cant": "All networks.", "anchors": ["pymnet/transforms.py:get_underlying_graph"]}
{"id": "C35", "title": "Degree distributions count every node once", "statement": "degs(net) maps each degree to the number of node-layers with that degree; its counts sum to the number of node-layers, and the degree-weighted sum of an undirected network is twice the number of edges minus the number of self-links.", "quantifier": "all networks", "why_tests_cant": "Double counting over all networks.", "anchors": ["pymnet/diagnostics.py:degs"]}
{"id": "C36", "title": "Density is between 0 and 1", "statement": "density of a self-link free node-aligned network with at least two node-layers lies in [0,1] and is 1 iff all possible edges are present. (It raises for non-node-aligned networks with a node and for a single node-layer.)", "quantifier": "all networks", "why_tests_cant": "Counting bound for all sizes.", "anchors": ["pymnet/diagnostics.py:density"]}
{"id": "C37", "title": "dijkstra returns shortest path distances", "statement": "For a network with positive edge weights and any sources that are node-layers of it, dijkstra terminates without raising and maps exactly the reachable node-layers to the minimum total weight of a path from a source; the forest consists of the reachable node-layers and of exactly the edges that are the last step of a shortest path, with their weights, plus a self-entry at each source.", "quantifier": "all finite networks with positive weights, all source sets, every heap tie-breaking", "why_tests_cant": "Graph algorithm correctness for all inputs and tie-breaks.", "anchors": ["pymnet/diagnostics.py:dijkstra"]}
{"id": "C38", "title": "dijkstra terminates on every finite network with non-negative weights", "statement": "dijkstra returns for every finite network whose edge weights are non-negative. (False of the code: a zero-weight cycle is requeued for ever.)", "quantifier": "all finite networks with non-negative weights", "why_tests_cant": "Termination.", "anchors": ["pymnet/diagnostics.py:dijkstra"]}
{"id": "C39", "title": "Local clustering coefficient of a monoplex network", "statement": "lcc of a node of an undirected network is the number of linked neighbour pairs divided by the number of neighbour pairs, hence in [0,1]; the undefined value is returned iff the degree is below two.", "quantifier": "all undirected self-link free monoplex networks and nodes", "why_tests_cant": "All networks.", "anchors": ["pymnet/cc.py:lcc", "pymnet/cc.py:cc_num_den"]}
{"id": "C40", "title": "The alternative implementations of the Barrett and contraction coefficients agree", "statement": "cc_barrett equals cc_barrett_explicit on every one-aspect multiplex network; gcc_contraction_m, gcc_contraction_m_ct and gcc_contraction_m_full return the same value on every network.", "quantifier": "all networks", "why_tests_cant": "Algebraic identities over unbounded sums.", "anchors": ["pymnet/cc.py:cc_barrett", "pymnet/cc.py:cc_barrett_explicit", "pymnet/cc.py:gcc_contraction_m", "pymnet/cc.py:gcc_contraction_m_full", "pymnet/cc.py:gcc_contraction_m_ct"]}
{"id": "C41", "title": "Isomorphism via the auxiliary graph is exact", "statement": "Two multilayer networks are isomorphic with respect to the allowed aspects (bijections of the nodes/elementary layers of the allowed aspects mapping node-layers to node-layers and edges to edges) iff the coloured auxiliary graphs built for them are isomorphic as coloured graphs.", "quantifier": "all pairs of networks, all sets of allowed aspects", "why_tests_cant": "Reduction correctness for all networks.", "anchors": ["pymnet/isomorphisms/isomcore.py:AuxiliaryGraphBuilder._build_graph_general", "pymnet/isomorphisms/isomcore.py:AuxiliaryGraphBuilder.compare"]}
{"id": "C42", "title": "Required intersection sizes determine the number of nodes (inclusion-exclusion)", "statement": "default_calculate_required_lengths applied to the sizes of all common intersections of a family of finite node sets returns the size of their union and the number of sets.", "quantifier": "all finite families of finite sets", "why_tests_cant": "Inclusion-exclusion for all families.", "anchors": ["pymnet/sampling/reqs.py:default_calculate_required_lengths"]}
{"id": "C43", "title": "Exhaustive enumeration lists each qualifying nodelist/layerlist pair exactly once", "statement": "dumb_enumeration adds to results exactly the pairs (node subset of size nnodes, layer subset of size nlayers) whose induced subnetwork passes the check, each once.", "quantifier": "all networks, sizes and checks", "why_tests_cant": "All networks.", "anchors": ["pymnet/sampling/dumb.py:dumb_enumeration"]}
{"id": "C44", "title": "The linear edge index of the Erdos-Renyi generator enumerates node pairs bijectively", "statement": "The formula turning an edge index in 0..n(n-1)/2-1 into a pair of nodes is a bijection onto the pairs of distinct nodes, so a layer generated with a given number of edges has exactly that many edges.", "quantifier": "all n and all sampled index sets", "why_tests_cant": "All sizes.", "anchors": ["pymnet/models.py:single_layer_er"]}
{"id": "C45", "title": "Complete networks are complete", "statement": "full(nodes,layers) has every intra-layer link between distinct nodes and full_multilayer(nodes,layers) every link between distinct node-layers, with no self-links.", "quantifier": "all sizes >= 2", "why_tests_cant": "All sizes.", "anchors": ["pymnet/models.py:full", "pymnet/models.py:full_multilayer"]}
{"id": "C46", "title": "Automorphism orbits", "statement": "automorphism_orbits assigns two nodes of a network the same orbit iff some composition of the automorphism generators maps one to the other, for every order in which generators and nodes are iterated.", "quantifier": "all generator lists and iteration orders", "why_tests_cant": "Closure computed by a single pass; correctness for all orders is not testable.", "anchors": ["pymnet/graphlets/graphlets.py:automorphism_orbits"]}
{"id": "C47", "title": "Combinatorial enumerators are exact", "statement": "layer_combinations yields every non-empty subset of layers exactly once and partitions yields every partition into blocks of the given size exactly once.", "quantifier": "all finite inputs", "why_tests_cant": "All sizes.", "anchors": ["pymnet/graphlets/graphlets.py:layer_combinations", "pymnet/graphlets/graphlets.py:partitions"]}
{"id": "C48", "title": "The networkx wrapper restores networkx.Graph", "statement": "After every call of a wrapped networkx function, whether it returns or raises, networkx.Graph is the class it was before. (False of the code when the call raises.)", "quantifier": "all wrapped functions, all outcomes", "why_tests_cant": "Crash point property.", "anchors": ["pymnet/nxwrap.py:networkxdecorator"]}
{"id": "C49", "title": "Self-links in multiplex networks", "statement": "A node-layer of a multiplex network is never iterated as its own neighbour, as self-links cannot be written and net[i,i,s] reads noEdge. (False of the code: net.A[s][i,i]=w makes the node-layer its own neighbour while net[i,i,s] still reads noEdge.)", "quantifier": "all multiplex networks and node-layers after any history of calls", "why_tests_cant": "Needs every sequence of writes through both access paths.", "anchors": ["pymnet/net.py:MultiplexNetwork._get_link", "pymnet/net.py:MultiplexNetwork._iter_neighbors_out"]}
{"id": "C50", "title": "Multiplex edge iteration yields every link once", "statement": "net.edges of a multiplex network yields exactly the intra-layer links written and the inter-layer links implied by the couplings, each exactly once (in one orientation if undirected) with its weight, and len(net.edges) is their number.", "quantifier": "all histories; node-aligned networks with categorical or ordinal couplings, non-aligned ones with one categorical aspect (C22 is false elsewhere)", "why_tests_cant": "Double counting depends on the whole structure.", "anchors": ["pymnet/net.py:MultilayerEdges.__iter__", "pymnet/net.py:MultilayerEdges.__len__", "pymnet/net.py:MultiplexNetwork._iter_dim"]}
{"id": "C51", "title": "Equality of multiplex networks", "statement": "For two multiplex networks whose couplings are strings or tuples, == never raises and is true exactly when couplings, directedness, noEdge, alignment, nodes, elementary layers, node-layers and all link values agree.", "quantifier": "all pairs of multiplex networks reached by any two histories", "why_tests_cant": "Quantifies over pairs of histories.", "anchors": ["pymnet/net.py:MultiplexNetwork.__eq__"]}
{"id": "C52", "title": "Total strength of directed multiplex networks", "statement": "In a directed multiplex network the total strength of a node-layer is its in-strength plus its out-strength. (False of the code: the inter-layer links are counted once.)", "quantifier": "all directed multiplex networks and node-layers", "why_tests_cant": "Universally quantified over histories.", "anchors": ["pymnet/net.py:MultiplexNetwork._get_strength_total_dir", "pymnet/net.py:MultiplexNetwork._get_dim_strength"]}
{"id": "C53", "title": "Restricted iteration in multiplex networks", "statement": "Iterating the neighbours of a node-layer of a multiplex network restricted to given indices yields exactly the neighbours having these indices, and the restricted degree is their number. (False of the code when a given index differs from the node-layer's own: nothing is yielded.)", "quantifier": "all multiplex networks (couplings as in C20-C22), node-layers and restrictions", "why_tests_cant": "Universally quantified over histories and restrictions.", "anchors": ["pymnet/net.py:MultiplexNetwork._select_dimensions", "pymnet/net.py:MultiplexNetwork._iter_neighbors_out", "pymnet/net.py:MultiplexNetwork._get_degree_out"]}
{"id": "C54", "title": "Aggregating a multiplex network sums its layers", "statement": "aggregate(net, all aspects) of a multiplex network with categorical or ordinal couplings keeps all nodes, reads for two different nodes the sum over all layers of the intra-layer links, and is not influenced by the couplings.", "quantifier": "every history of calls on a node-aligned multiplex network, or a non-aligned one with one categorical aspect, that writes no self-link through net.A; every number of aspects and layers", "why_tests_cant": "The sum ranges over unboundedly many layers and histories; the edge iterator the sum relies on has several code paths per coupling.", "anchors": ["pymnet/transforms.py:aggregate", "pymnet/net.py:MultiplexNetwork", "pymnet/net.py:MultilayerEdges"]}
{"id": "C55", "title": "get_isomorphism returns an isomorphism", "statement": "get_isomorphism(net1,net2) returns one dictionary per aspect such that renaming the nodes and elementary layers of net1 by them (names without entry stay) maps node-layers and links of net1 exactly onto those of net2, whenever the networks are isomorphic; with include_fixed all names have entries, without it exactly the changed names; if the networks are not isomorphic no dictionaries are returned.", "quantifier": "all pairs of undirected networks with the same number (at least one) of aspects, all sets of allowed aspects, both values of include_fixed", "why_tests_cant": "Must hold for every pair of networks and every mapping the backend may return.", "anchors": ["pymnet/isomorphisms/__init__.py:get_isomorphism", "pymnet/isomorphisms/isomcore.py:AuxiliaryGraphBuilder.get_isomorphism"]}
{"id": "C56", "title": "The complete invariant is complete", "statement": "get_complete_invariant returns equal values for two networks exactly when they are isomorphic with respect to the allowed aspects.", "quantifier": "all pairs of undirected networks with the same number (at least one) of aspects, all sets of allowed aspects", "why_tests_cant": "Completeness quantifies over all non-isomorphic pairs.", "anchors": ["pymnet/isomorphisms/__init__.py:get_complete_invariant", "pymnet/isomorphisms/isomcore.py:AuxiliaryGraphBuilder.get_complete_invariant"]}
{"id": "C57", "title": "Automorphism generators generate the automorphism group", "statement": "Every multilayer permutation returned by get_automorphism_generators is an automorphism of the network that leaves the aspects that are not allowed alone, and every such automorphism is a composition of returned ones.", "quantifier": "all undirected networks with at least one aspect, all sets of allowed aspects, both values of include_fixed", "why_tests_cant": "Completeness of a generating set quantifies over all automorphisms of all networks.", "anchors": ["pymnet/isomorphisms/__init__.py:get_automorphism_generators", "pymnet/isomorphisms/isomcore.py:AuxiliaryGraphBuilder.get_automorphism_generators"]}
{"id": "C58", "title": "The ESU sampler returns each subgraph at most once, with probability product(p)", "statement": "sample_multilayer_subgraphs_esu returns only subgraphs that meet the requirements, none of them twice whatever the random draws; for each connected subgraph without empty nodes and layers there are n+k-1 different draws, one with each entry of p, such that the subgraph is returned exactly if it meets the requirements and all these draws succeed. With all draws succeeding (p not given) the result is the same as that of dumb_enumeration.", "quantifier": "all undirected one-aspect networks, all documented combinations of arguments, all outcomes of random.random() and all choices of set.pop, with and without copying the network", "why_tests_cant": "Uniqueness and completeness of a randomised tree search quantify over all networks, all random outcomes and all orders in which sets are popped.", "anchors": ["pymnet/sampling/esu.py:sample_multilayer_subgraphs_esu", "pymnet/sampling/esu.py:_extend_subgraph"]}
{"id": "C59", "title": "Zhang's clustering coefficient", "statement": "cc_zhang returns sum W_ij W_ih W_jh / (w_max sum_{j!=h} W_ij W_ih), undefined iff the node has fewer than two neighbours; gcc_zhang the quotient of the sums over all nodes, None iff the denominator is 0. Both lie in [0,1]. On a network without links both raise ValueError.", "quantifier": "all undirected monoplex networks with non-negative weights and no self-links, all nodes", "why_tests_cant": "The formula sums over all neighbour pairs of all networks; the range is an inequality over all weights.", "anchors": ["pymnet/cc.py:cc_zhang", "pymnet/cc.py:gcc_zhang"]}
{"id": "C60", "title": "Barrat's clustering coefficient", "statement": "cc_barrat returns sum_{jh} (W_ij+W_ih)/2 A_ij A_ih A_jh / ((k-1) s), in [0,1]; undefined iff the node has fewer than two neighbours.", "quantifier": "all undirected monoplex networks with non-negative weights and no self-links, all nodes", "why_tests_cant": "The formula and range are over all networks and weights.", "anchors": ["pymnet/cc.py:cc_barrat"]}
{"id": "C61", "title": "Battiston's clustering coefficients", "statement": "lcc_battiston1 and lcc_battiston2 return the documented quotients (documented: not normalised, value (n-1)/(n-2) on full multiplex networks with n nodes); undefined iff the denominator is 0.", "quantifier": "all one-aspect networks, all nodes", "why_tests_cant": "The sums range over all networks, layers and node triples.", "anchors": ["pymnet/cc.py:lcc_battiston1", "pymnet/cc.py:lcc_battiston2"]}
{"id": "C62", "title": "Brodka's cross-layer clustering coefficient", "statement": "lcc_brodka returns the documented quotient over the neighbourhood of the nodes linked in at least t layers (0 if it is empty); giving the aggregated network does not change the value.", "quantifier": "all undirected one-aspect multiplex networks, all nodes and thresholds", "why_tests_cant": "All networks and thresholds.", "anchors": ["pymnet/cc.py:lcc_brodka"]}
{"id": "C63", "title": "Criado's clustering coefficient", "statement": "lcc_criado returns twice the links of each layer among the neighbours on that layer, summed over layers, divided by the sum of the numbers of ordered pairs of them; undefined iff that is 0; it lies in [0,1]; giving the aggregated network does not change the value.", "quantifier": "all undirected one-aspect multiplex networks, node-aligned or not, all nodes", "why_tests_cant": "All networks; agreement of two ways of finding the neighbourhood.", "anchors": ["pymnet/cc.py:lcc_criado"]}
{"id": "C64", "title": "Contraction coefficients of the aggregated network", "statement": "gcc_contraction_o, gcc_contraction_o2 and gcc_contraction_o_full return the same value: closed walks of the aggregated network divided by the number of layers times its open walks. With weights in [0,1] and no self-links the coefficients lie in [0,1].", "quantifier": "all one-aspect networks, directed or not", "why_tests_cant": "Algebraic identities and inequalities over unbounded sums.", "anchors": ["pymnet/cc.py:gcc_contraction_o", "pymnet/cc.py:gcc_contraction_o2", "pymnet/cc.py:gcc_contraction_o_full"]}
{"id": "C65", "title": "Supra-graph and layer-averaged clustering", "statement": "gcc_super_graph is the transitivity of the graph on all node-layers; cc_sequence lists the triangle and neighbour-pair counts of each layer; cc_layers_wavg and gcc_super_graph_no_couplings are the quotients of their sums.", "quantifier": "all undirected networks (gcc_super_graph: any number of aspects; the others: one-aspect multiplex networks), all nodes", "why_tests_cant": "All networks.", "anchors": ["pymnet/cc.py:gcc_super_graph", "pymnet/cc.py:gcc_super_graph_no_couplings", "pymnet/cc.py:cc_sequence", "pymnet/cc.py:cc_layers_wavg"]}
{"id": "C66", "title": "Automorphism orbits of node-layers", "statement": "automorphism_orbits_nl assigns every node-layer the least node-layer that an automorphism of the network takes it to, so two node-layers get the same orbit iff an automorphism maps one to the other.", "quantifier": "all undirected one-aspect networks, all sets of aspects that may change, all iteration orders", "why_tests_cant": "Closure under all automorphisms of all networks.", "anchors": ["pymnet/graphlets/graphlets.py:automorphism_orbits_nl"]}
{"id": "C67", "title": "Partitions with a remainder", "statement": "partitions_with_remainder yields every partition of the set in which at most one block has a size other than the given one, each exactly once. (False in Python 3: the call raises NameError.)", "quantifier": "all finite sets, all block sizes >= 1, all iteration orders", "why_tests_cant": "All sizes.", "anchors": ["pymnet/graphlets/graphlets.py:partitions_with_remainder"]}
{"id": "C68", "title": "list_orbits lists every orbit once", "statement": "list_orbits lists, for each number of nodes, every orbit of every network with that number of nodes exactly once.", "quantifier": "all orbit dictionaries", "why_tests_cant": "All inputs.", "anchors": ["pymnet/graphlets/graphlets.py:list_orbits"]}
{"id": "C69", "title": "Erdos-Renyi networks with a probability", "statement": "er and er_partially_interconnected with probabilities: each layer has exactly the given nodes, its links have weight 1 and join distinct nodes, each pair of nodes is considered once, and the pairs passed over between two links follow the geometric distribution (a random number r makes the generator pass over s pairs iff r is in [1-(1-p)^s, 1-(1-p)^(s+1))). (False for p=0: ZeroDivisionError.)", "quantifier": "all node sets, all probabilities in [0,1], all sequences of random numbers", "why_tests_cant": "All sizes and all random sequences.", "anchors": ["pymnet/models.py:er", "pymnet/models.py:single_layer_er", "pymnet/models.py:er_partially_interconnected"]}
{"id": "C70", "title": "Multilayer Erdos-Renyi networks", "statement": "er_multilayer(n,layers,p) is a network with n nodes on every layer in which each considered pair of node-layers is linked iff its random number is below p; no self-links. (False for the nodes and layers: those without links are missing; counterparts of a node on two layers are never considered.)", "quantifier": "all sizes, all layers, all p, all random numbers", "why_tests_cant": "All sizes and all random sequences.", "anchors": ["pymnet/models.py:er_multilayer"]}
{"id": "C71", "title": "Preferential attachment on multiplex networks", "statement": "ba_total_degree(n,m,...) never raises; the network has all n nodes and on the layer with parameter m every node after the first m is linked to exactly m distinct earlier nodes; nodes are sampled in proportion to their total degree over all layers.", "quantifier": "all n, all lists of parameters, all random outcomes", "why_tests_cant": "All sizes and all random sequences.", "anchors": ["pymnet/models.py:ba_total_degree"]}
{"id": "C72", "title": "Erdos-Renyi networks with overlaps that match the aggregated network", "statement": "er_overlaps_match_aggregated(n,edges,ps): every link has weight 1, the aggregated network has exactly edges times the number of layers links, and each layer has exactly edges links. (False for the layers: a layer has more links the more combinations it is in.)", "quantifier": "all sizes, numbers of edges, combinations of layers and random outcomes", "why_tests_cant": "All sizes and all random sequences.", "anchors": ["pymnet/models.py:er_overlaps_match_aggregated"]}
{"id": "C73", "title": "Configuration model: the degrees are exact", "statement": "conf(degs) for one layer: if it returns, the network is simple, has exactly the given nodes, and every node has exactly the given degree (for a distribution: for each degree exactly the given number of nodes has it). It raises AssertionError exactly for degree sums that are odd or larger than n(n-1); every simple network with the given degrees is a possible result.", "quantifier": "all degree dictionaries, all shuffles and draws", "why_tests_cant": "All degree sequences and all random sequences, including the repairs of self-links and multiple links.", "anchors": ["pymnet/models.py:conf", "pymnet/models.py:single_layer_conf"]}
{"id": "C74", "title": "Configuration model on several layers", "statement": "conf of a list or dictionary of layers: a multiplex network with these layers and the given coupling, node-aligned exactly if all layers have the same nodes; each layer has exactly the given nodes and degrees.", "quantifier": "all lists and dictionaries of degrees, all shuffles and draws", "why_tests_cant": "All degree sequences and all random sequences.", "anchors": ["pymnet/models.py:conf"]}
{"id": "C75", "title": "Configuration model: the call can always finish", "statement": "For degrees that some simple network has, whatever the order of the shuffled stubs, there are draws with which conf returns. (False: with few nodes a self-link cannot be repaired and the call draws forever, e.g. for the degrees 2,2,2 of a triangle.)", "quantifier": "all degree dictionaries of simple networks, all shuffles", "why_tests_cant": "Non-termination for rare shuffles cannot be seen by running tests.", "anchors": ["pymnet/models.py:single_layer_conf"]}
{"id": "C76", "title": "Configuration model of a given network", "statement": "conf(net): if it returns, the result is simple and has the nodes, layers and degrees of net; the coupling of the result is categorical with weight 1, whatever that of net.", "quantifier": "all undirected networks without aspects and multiplex networks with one aspect, all random outcomes", "why_tests_cant": "All networks and all random sequences.", "anchors": ["pymnet/models.py:conf"]}
{"id": "C77", "title": "Configuration model with overlap degrees", "statement": "conf_overlaps(ol_degs): if it returns, then for each layer combination and each node the number of neighbours that are linked on exactly the layers of the combination is the given degree; every linked pair is linked on exactly the layers of one combination; all links have weight 1 and there are no self-links. Only AssertionError (odd or too large degree sum of a combination) and ValueError (degree sum 2) are raised, and every network with the given overlap degrees is a possible result.", "quantifier": "all dictionaries of overlap degrees, all random outcomes", "why_tests_cant": "The links of several combinations are repaired against each other by random swaps; a wrong swap shows only for rare sequences.", "anchors": ["pymnet/models.py:conf_overlaps"]}
{"id": "C78", "title": "Configuration model with overlap degrees: nodes", "statement": "The network returned by conf_overlaps has all nodes and all layers of the given overlap degrees. (False: nodes with degree 0 and layers without links are missing.)", "quantifier": "all dictionaries of overlap degrees, all random outcomes", "why_tests_cant": "Tests with only positive degrees cannot see it; what is missing has to be known for all degrees.", "anchors": ["pymnet/models.py:conf_overlaps"]}
{"id": "C79", "title": "Elementary cycle counts are numbers of closed walks", "statement": "elementary_cycles(net,node,layer) for a categorically coupled multiplex network returns, for each of its ten entries, the number of closed walks from the node-layer of the kind its letters name: a is a link within the layer, c a step to another layer of the same node, f a step to any other node of the same layer, linked or not. With node or layer left out it returns the sums over the node-layers (for networks that are not node-aligned, or with a node given).", "quantifier": "all histories of a multiplex network with one categorical aspect, node-aligned or not, any weights, all nodes and layers", "why_tests_cant": "Ten different loops and shortcuts for node-aligned networks compute the counts; tests compare them on a few networks.", "anchors": ["pymnet/cc.py:elementary_cycles", "pymnet/cc.py:cc_cycle_vector_bf"]}
{"id": "C80", "title": "Alternating-walker clustering coefficients", "statement": "lcc_aw, sncc_aw, sncc_aw_layercost, sncc_aw_seplayers, avg_lcc_aw and gcc_moreno2_seplayers return the weighted share of the possible closed walks that exist, are in [0,1] (for non-negative weights with sum at most 1), and avg_lcc_aw raises ZeroDivisionError exactly if there are no node-layers.", "quantifier": "all histories of a categorically coupled multiplex network, all weights w1,w2,w3", "why_tests_cant": "The bound relates ten counts with each other; a count that exceeds its normaliser shows only on special networks.", "anchors": ["pymnet/cc.py:lcc_aw", "pymnet/cc.py:sncc_aw", "pymnet/cc.py:avg_lcc_aw", "pymnet/cc.py:sncc_aw_layercost", "pymnet/cc.py:sncc_aw_seplayers", "pymnet/cc.py:gcc_moreno2_seplayers"]}
{"id": "C81", "title": "The fast cycle counts agree with the brute force counts", "statement": "For node-aligned networks elementary_cycles without a node (or with the aggregated network given) returns the same sums as adding the counts of the node-layers. (False for weighted networks.)", "quantifier": "all node-aligned categorically coupled multiplex networks", "why_tests_cant": "Tests use unweighted networks; the equality is an identity between sums over all networks.", "anchors": ["pymnet/cc.py:cc_cycle_vector_anet", "pymnet/cc.py:elementary_cycles"]}
{"id": "C82", "title": "Global alternating-walker clustering coefficient", "statement": "gcc_aw returns the weighted share of the possible closed walks of the whole network that exist, and is in [0,1]. (False for weighted networks: 2 is returned if all weights of a triangle are 2.)", "quantifier": "all categorically coupled multiplex networks", "why_tests_cant": "As C80, over the whole network and through the aggregated network.", "anchors": ["pymnet/cc.py:gcc_aw"]}
{"id": "C83", "title": "Cycle counts follow the coupling links", "statement": "The counts of cycles with layer changes only use inter-layer links that exist, for every coupling. (False: node-aligned networks are treated as if all layers were coupled.)", "quantifier": "all one-aspect multiplex networks with any coupling", "why_tests_cant": "Tests use categorical couplings only.", "anchors": ["pymnet/cc.py:cc_cycle_vector_bf"]}
{"id": "C84", "title": "Sub-network of a multiplex network", "statement": "subnet(net,nodes,layers...) of a multiplex network is a multiplex network with the same couplings, directedness and node-alignment that has exactly the selected nodes (in networks that are not node-aligned, those on a selected layer), elementary layers, node-layers and intra-layer links; names that are not in the network are ignored, except that a selected layer that does not exist is a KeyError (if links are copied), and a wrong number of selections is an AssertionError.", "quantifier": "all multiplex networks with any number of aspects reached by any history, directed or not, node-aligned or not, whose couplings are not networks; all selections", "why_tests_cant": "Which links are visited depends on a comparison of degrees and selection sizes, and on the history of the network; tests use a few selections.", "anchors": ["pymnet/transforms.py:subnet"]}
{"id": "C85", "title": "Renaming of a multiplex network", "statement": "relabel of a multiplex network without self-links, with names that are different for different nodes and for different elementary layers of an aspect, is the same multiplex network with the new names: nodes, layers, node-layers, links and weights correspond one to one. If two linked nodes get the same name, it raises KeyError.", "quantifier": "all multiplex networks with any number of aspects reached by any history, whose couplings are not networks; all name maps", "why_tests_cant": "Renaming may permute names, so that reads and writes of intermediate states could interfere; this depends on the map and the network.", "anchors": ["pymnet/transforms.py:relabel"]}
{"id": "C86", "title": "Sub-networks and renamed copies exist for every coupling", "statement": "subnet and relabel return for multiplex networks coupled with a network as well. (False: both raise AssertionError for every such network.)", "quantifier": "all multiplex networks one of whose couplings is a network, all arguments", "why_tests_cant": "Tests have no network couplings with these functions.", "anchors": ["pymnet/transforms.py:subnet", "pymnet/transforms.py:relabel", "pymnet/net.py:MultiplexNetwork.__init__"]}
{"id": "C87", "title": "Generated graphlets are graphlets", "statement": "graphlets(n,layers,n_l,couplings,allowed_aspects) returns, for uncoupled layers (the default) and categorical and ordinal couplings. nets has a list for each size 2..n, and every network in the list of size m is an undirected node-aligned multiplex network with the given coupling, the nodes 0..m-1 and n_l of the given layers; it is connected by its intra-layer links, its weights are 0 and 1 and it has no self-links.", "quantifier": "all n, layer lists, n_l, couplings other than networks, allowed aspects, and all correct isomorphism backends", "why_tests_cant": "The networks of one size are built from those of the previous size without bound on n; tests look at n=3 or 4 and count.", "anchors": ["pymnet/graphlets/graphlets.py:graphlets", "pymnet/transforms.py:subnet"]}
{"id": "C88", "title": "Generated graphlets are pairwise non-isomorphic", "statement": "No two networks returned by graphlets at different places are isomorphic, and the returned dictionary maps exactly the complete invariants of the returned networks (as strings), each to the size and list index of its network.", "quantifier": "as C87; all pairs of returned networks of any sizes, all strings", "why_tests_cant": "Isomorphism is over all permutations of nodes and layers, for all pairs of an unbounded list.", "anchors": ["pymnet/graphlets/graphlets.py:graphlets", "pymnet/isomorphisms/isomfunctions.py:get_complete_invariant"]}
{"id": "C89", "title": "All graphlets are generated", "statement": "If node names may change, every connected undirected node-aligned multiplex network with the given coupling, m nodes (2<=m<=n) and n_l of the given layers is isomorphic to a network in the list of size m, whatever its node names and weights.", "quantifier": "as C87; all multiplex networks reached by any history", "why_tests_cant": "Completeness of an enumeration over all networks and all n; it rests on every connected network having a node whose removal leaves it connected.", "anchors": ["pymnet/graphlets/graphlets.py:graphlets", "pymnet/graphlets/graphlets.py:layer_combinations"]}
{"id": "C90", "title": "Node sets touching a node", "statement": "touching_orbit_nodes(net, node, n) returns exactly the sets of 2 to n nodes that contain the node and are connected by links within the set, each once.", "quantifier": "all undirected node-aligned one-aspect multiplex networks without self-links on a layer, reached by any history; all nodes, all n; all iteration orders of sets", "why_tests_cant": "An exact enumeration over all networks and sizes; sets reached by several paths or through several layers must appear once.", "anchors": ["pymnet/graphlets/graphlet_measures.py:touching_orbit_nodes"]}
{"id": "C91", "title": "Orbit counts of a node are exact", "statement": "After graphlets, automorphism_orbits, orbit_numbers and ordered_orbit_list, orbit_counts(n, node, net, ...) returns and sets, for every orbit of the list, the entry of the node to the number of connected sets of 2 to n nodes whose induced sub-network is isomorphic to the graphlet of the orbit with the node in the place of the orbit. Entries of other nodes are kept.", "quantifier": "all networks as in C90 with n_l of the given layers, all couplings that isomorphism can decide, all allowed aspects with the nodes, all n up to the size of the graphlets", "why_tests_cant": "A count over all connected node sets of all networks; it needs completeness of the graphlets, of the invariants and of the orbits.", "anchors": ["pymnet/graphlets/graphlet_measures.py:orbit_counts"]}
{"id": "C92", "title": "Counts of all nodes", "statement": "orbit_counts_all returns the same counts for all nodes at once: every entry is the number of connected sets of 2 to n nodes in which the node has the role of the orbit, the same as that of orbit_counts.", "quantifier": "as C91", "why_tests_cant": "The algorithm removes the links of processed nodes and skips processed nodes: every set must be counted exactly once, for each of its nodes.", "anchors": ["pymnet/graphlets/graphlet_measures.py:orbit_counts_all"]}
{"id": "C93", "title": "Counting orbits does not change the network", "statement": "After orbit_counts_all the network has the nodes, layers and links it had before.", "quantifier": "as C91", "why_tests_cant": "The state of an argument after a call, for all networks. (False of the code: all links are removed.)", "anchors": ["pymnet/graphlets/graphlet_measures.py:orbit_counts_all"]}
{"id": "C94", "title": "Orbits and their numbers", "statement": "automorphism_orbits of the generated graphlets gives two nodes of a graphlet the same orbit iff an automorphism takes one to the other, and names the orbit after its least node. orbit_numbers and ordered_orbit_list return: the list has every orbit of the graphlets with at most n nodes once, and the number of an orbit is its position in the list.", "quantifier": "all sizes, layers, couplings and allowed aspects as in C87", "why_tests_cant": "Equality with the orbits of a group, for all graphlets of all sizes; a bijection of numbers and orbits.", "anchors": ["pymnet/graphlets/graphlets.py:automorphism_orbits", "pymnet/graphlets/graphlet_measures.py:orbit_numbers", "pymnet/graphlets/graphlet_measures.py:ordered_orbit_list"]}
{"id": "C95", "title": "Shortest paths between nodes given in some aspects", "statement": "dijkstra_mlayer_prune(net,sources,aaspects) with non-negative weights: the paths start at the node-layers with links that agree with a source outside aaspects. If the call returns it does not raise; the first result has as keys exactly the tuples that are left of the reachable node-layers when the aspects aaspects are dropped, with the least distance from the sources of a node-layer behind the tuple; the second is the network of the steps of the shortest walks to the node-layers where this least distance is attained, with their weights. The call returns iff no closed walk of weight zero can be reached. A source with a name in a dropped aspect is refused.", "quantifier": "all networks with an aspect and non-negative weights, all sources and aspects to drop, all orders in which the heap returns ties", "why_tests_cant": "Minimum over all walks of all networks, and a statement on which shortest walks are kept.", "anchors": ["pymnet/diagnostics.py:dijkstra_mlayer_prune"]}
{"id": "C96", "title": "Densities and degrees of the layers", "statement": "multiplex_density(net) and multiplex_degs(net) have exactly the layers as keys. The density of a layer without self-links is the number of ordered pairs of nodes linked in the layer over the number of ordered pairs of different nodes of the layer (0 without nodes, ZeroDivisionError for one node); the degrees of a layer are the numbers of neighbours in the layer of the nodes of the layer, as a dict of the nodes or as their distribution. Couplings are not counted.", "quantifier": "all histories of calls on a multiplex network, all couplings", "why_tests_cant": "Counting identity over all networks.", "anchors": ["pymnet/diagnostics.py:multiplex_density", "pymnet/diagnostics.py:multiplex_degs"]}
{"id": "C97", "title": "Overlap degrees", "statement": "overlap_degs(net) returns, for every combination of layers, how many links each node has that are in exactly these layers.", "quantifier": "all multiplex networks with one aspect", "why_tests_cant": "It must hold for every network. (False of the code: the function uses names that its module does not import and raises NameError for every network.)", "anchors": ["pymnet/diagnostics.py:overlap_degs"]}
{"id": "C98", "title": "Reading edge files", "statement": "read_edge_files(edgeinput,...) of lines 'layer from to weight': the multiplex network has exactly the layers and nodes of the lines that are not self-links; the nodes of a line are on its layer (on all layers if fullyInterconnected); the weight of a link in a layer is that of the last line that gives it, in either direction if not directed. A line without four fields or with a field that is not a number raises ValueError. With a layer file and a node file, the names and properties in them are used; with ignoreSelfLink=False self-links are read too.", "quantifier": "all files, couplings and flags", "why_tests_cant": "Statement over all sequences of lines. (False of the code: the layer and node files are never read, and with ignoreSelfLink=False a self-link raises KeyError.)", "anchors": ["pymnet/netio.py:read_edge_files"]}
{"id": "C99", "title": "Writing JSON", "statement": "write_json(net): the nodes and layers of a multiplex network with one aspect are listed once each, every intra-layer link is listed exactly once with the positions of its two nodes and its layer and its weight, and nothing else is listed as a link; a network with more aspects is refused.", "quantifier": "all histories of calls on a multiplex network", "why_tests_cant": "Bijection between links and entries for every history.", "anchors": ["pymnet/netio.py:write_json"]}
{"id": "C100", "title": "Writing edge files", "statement": "write_edge_files(net,outputfiles,...): for every layer a file outputfiles+str(layer)+'.edg' has exactly one row for every link of the layer, with the names (or positions) of its nodes and, if asked for, the weight; the rows can be split again if the names do not contain the separators; the master file lists the files and layers; no other file is written. What was written can be read by read_edge_files.", "quantifier": "all histories of calls on a multiplex network with one aspect, all separators and flags", "why_tests_cant": "Statement over all networks. (False of the code: read_edge_files raises ValueError for every non-empty file written, and layers with the same text overwrite each other's files.)", "anchors": ["pymnet/netio.py:write_edge_files"]}
{"id": "C101", "title": "Reading UCINET files", "statement": "read_ucinet of a DL file with a full matrix: the header may be on one or two lines and in any case, labels may be given as labels, row labels, column labels, level labels or embedded in the data, in any order and broken over lines, and rows of the matrix may be broken over lines. The result has all labels as nodes (as layers for levels) and a link of the weight of the entry for every non-zero entry off the diagonal; labels are lower case; other formats are refused.", "quantifier": "all files that satisfy the grammar, all couplings and numbers of levels", "why_tests_cant": "Statement over a grammar of files. (False of the code in several ways: a level without links raises KeyError, nodes without links of a one-level file are lost, the format is never looked at, labels keep their case, embedded rows cannot be broken before the last field.)", "anchors": ["pymnet/netio.py:read_ucinet"]}
{"id": "C102", "title": "Strongly connected components of equations", "statement": "SCCs(net) returns the strongly connected components of the network of equations, numbered from 1 such that links go to components with the same or a smaller number; a link to an equation that is not in the network raises KeyError.", "quantifier": "all networks of equations (dictionaries from equations to collections of equations), all iteration orders", "why_tests_cant": "Statement over all directed graphs.", "anchors": ["pymnet/graphlets/independent_equations.py:SCCs", "pymnet/graphlets/independent_equations.py:reverse", "pymnet/graphlets/independent_equations.py:explore", "pymnet/graphlets/independent_equations.py:DFS"]}
{"id": "C103", "title": "Independent and dependent equations", "statement": "independents_and_dependents puts every equation into exactly one of the two sets; every dependent equation follows from the independent ones, and no independent equation follows from the others.", "quantifier": "all networks of equations, all iteration orders of sets", "why_tests_cant": "Statement over all directed graphs. (False of the code: an equation of three orbits without links is called dependent, and the independent equations of a component may follow from each other.)", "anchors": ["pymnet/graphlets/independent_equations.py:independents_and_dependents"]}
{"id": "C104", "title": "Best choice of dependencies", "statement": "all_inds_and_deps chooses for every equation one of the sets it depends on such that the number of dependent equations is as large as possible, and returns the split of that choice; if no choice has a dependent equation, all are independent.", "quantifier": "all networks of equations with alternatives", "why_tests_cant": "Statement over all choices in all networks. (False of the code if no choice has a dependent equation: UnboundLocalError.)", "anchors": ["pymnet/graphlets/independent_equations.py:all_inds_and_deps"]}
{"id": "C105", "title": "Definitely independent equations", "statement": "definitely_independent puts every equation into exactly one of two sets; an equation is in the first iff all orbits of its left side have two nodes or it has an orbit that is in no other equation. An equation with an orbit of its own is linearly independent of the others, whatever the coefficients are.", "quantifier": "all systems of equations", "why_tests_cant": "Statement over all systems and all coefficients.", "anchors": ["pymnet/graphlets/independent_equations.py:definitely_independent"]}
{"id": "C106", "title": "Redundant orbits", "statement": "redundant_orbits(inds,eqs,orbit_is,orbit_list) gives every equation an orbit of its right side, no two equations the same: the one with the largest number that is not taken; the result does not depend on the order in which the equations are iterated.", "quantifier": "all systems of equations and all iteration orders", "why_tests_cant": "Statement over all orders of iteration. (False of the code: the same call returns in one order and raises ValueError in another.)", "anchors": ["pymnet/graphlets/independent_equations.py:redundant_orbits"]}
{"id": "C107", "title": "Coefficients of orbit equations", "statement": "coefficient(the_node,both_orbit_nodes,orbit1,orbit2,net,...) is the number of ways to cover the nodes of the network by two sets with as many common nodes as both_orbit_nodes has, among them the node, in which the node has the roles of the two orbits; half of it if the orbits are equal.", "quantifier": "all networks, nodes, and pairs of orbits of prepared graphlets of any size", "why_tests_cant": "Statement over all networks and graphlets of any size.", "anchors": ["pymnet/graphlets/graphlets.py:coefficient", "pymnet/graphlets/graphlets.py:coefficient_help"]}
{"id": "C108", "title": "Orbit equations hold", "statement": "For every network and node, the counts of orbit_counts satisfy the orbit equations with the coefficients of coefficient: the count of the first orbit, less the number of its copies in the graphlet of the second, times the count of the second, is the sum over the orbits with more nodes of their counts times the coefficients; for twice the same orbit, count*(count-1)/2.", "quantifier": "all networks, nodes, and pairs of orbits that together have at most n+1 nodes", "why_tests_cant": "Statement relating counts in every network to coefficients computed from graphlets only.", "anchors": ["pymnet/graphlets/graphlets.py:coefficient", "pymnet/graphlets/graphlet_measures.py:orbit_counts"]}
{"id": "C109", "title": "Names of orbits", "statement": "orbit_name(node,net,nets,invs,auts) of a connected network returns the only orbit whose role the node has in the network.", "quantifier": "all connected networks with 2 to n nodes, all nodes", "why_tests_cant": "Statement over all networks of all sizes up to the size of the graphlets, which is unbounded.", "anchors": ["pymnet/graphlets/graphlets.py:orbit_name"]}
{"id": "C110", "title": "Subtrahends of orbit equations", "statement": "subtrahend(orbit1,orbit2,...) is the number that must be subtracted from the count of orbit2 in the equation of the two orbits: the number of sets of nodes of the graphlet of orbit1 in which its node has the role of orbit2.", "quantifier": "all pairs of orbits of prepared graphlets of any size", "why_tests_cant": "Statement over all graphlets. (False of the code: NameError in Python 3; in Python 2 only sets that share nothing but the node are counted.)", "anchors": ["pymnet/graphlets/graphlets.py:subtrahend"]}
{"id": "C111", "title": "Iteration over induced sub-networks", "statement": "subnet_iter(net,remove_elayers) yields exactly the sub-networks induced by the choices of elementary layers and nodes that keep at least one name in each aspect listed in remove_elayers and everything in the other aspects; each choice is yielded once, as a network that reads like net on what is kept. An aspect that does not exist is an AssertionError.", "quantifier": "all general networks and all multiplex networks that are not coupled with a network, with any number of aspects, and all lists of aspects", "why_tests_cant": "Exponentially many sub-networks of networks of every size.", "anchors": ["pymnet/transforms.py:subnet_iter", "pymnet/transforms.py:subnet"]}
{"id": "C112", "title": "Iteration over all sub-networks", "statement": "subnet_iter(net,remove_elayers,remove_edges=True) yields exactly the sub-networks of net obtained by removing elementary layers and nodes as in C111 and then any set of the links left, each once.", "quantifier": "all networks, and all lists of aspects", "why_tests_cant": "Exponentially many sub-networks of networks of every size. (False of the code when nodes or layers are removed: links of the whole network are added back, so removed nodes reappear; multiplex networks with couplings raise an exception.)", "anchors": ["pymnet/transforms.py:subnet_iter"]}
{"id": "C113", "title": "Replacing an intra-layer network", "statement": "After net.A[layer]=val for a monoplex network val and an existing layer, the links of the layer are those of val, the nodes of val are nodes of the network (and, unless it is node-aligned, exactly they are the nodes of the layer), everything else is as before, and all ways of reading the network agree; if val has aspects or the layer does not exist an exception is raised and nothing changes.", "quantifier": "all multiplex networks, layers and monoplex networks", "why_tests_cant": "Networks of all sizes and histories, where the layer had other nodes before. (False of the code for networks that are not node-aligned: nodes that were on the layer before stay registered there, so neighbours and degrees still show coupling links to it.)", "anchors": ["pymnet/net.py:MultiplexIntraNetDict.__setitem__"]}
{"id": "C114", "title": "The networkx view shows the network", "statement": "The mappings adj, adj[u] and adj[u][v] of the networkx view of a monoplex network show exactly its nodes, for each node the nodes linked to it, and for each link its weight: iteration, length, membership and the KeyErrors agree, and adj[u] has v exactly if adj[v] has u.", "quantifier": "all undirected networks without aspects that public calls can produce, and all keys", "why_tests_cant": "Networks of all sizes and histories of insertions and deletions.", "anchors": ["pymnet/nxwrap.py:MonoplexGraphWrapper_adj", "pymnet/nxwrap.py:MonoplexGraphWrapper_adj_row", "pymnet/nxwrap.py:MonoplexGraphWrapper_singleedge"]}
{"id": "C115", "title": "Writing through the networkx view", "statement": "Writing to the mappings of the networkx view changes the network as networkx expects: adj[u][v]=attributes gives the link between u and v the weight attribute (1 if there is none), deleting it removes the link or raises KeyError if there is none, adj[u]=mapping makes adj[u] that mapping; nothing else changes.", "quantifier": "all undirected networks without aspects, nodes, attributes and mappings", "why_tests_cant": "Networks of all sizes. (False of the code: the first of several attributes is taken for the weight; deleting a missing link raises nothing and adds its nodes; deleting a self-link raises KeyError; adj[u]=mapping keeps the links u had.)", "anchors": ["pymnet/nxwrap.py:MonoplexGraphWrapper_adj.__setitem__", "pymnet/nxwrap.py:MonoplexGraphWrapper_adj_row.__setitem__", "pymnet/nxwrap.py:MonoplexGraphWrapper_singleedge.__setitem__"]}
{"id": "C116", "title": "Randomization of the nodes of each layer", "statement": "randomize_nodes_by_layer(net) returns a network with the layers, couplings and parameters of net, in which every layer has the same nodes and its links are those of net with the nodes permuted by the shuffled order of the layer; net is not changed.", "quantifier": "all multiplex networks with one aspect and all outcomes of the shuffles", "why_tests_cant": "All permutations of layers of all sizes.", "anchors": ["pymnet/transforms.py:randomize_nodes_by_layer"]}
{"id": "C117", "title": "Random networks on given node-layers", "statement": "er_multilayer_partially_interconnected(nodes_by_layer,p) has the layers 0, 1, ..., on each exactly the nodes listed for it, and two different node-layers are linked, with weight 1, exactly if the random number drawn for the pair is below p: every pair has its own number and there are no self-links.", "quantifier": "all lists of lists of nodes, probabilities and random numbers", "why_tests_cant": "All random outcomes.", "anchors": ["pymnet/sampling/creators.py:er_multilayer_partially_interconnected"]}
{"id": "C118", "title": "Random geometric networks", "statement": "geo(n,edges), n at least 2, has the layers 0, 1, ..., layer i has exactly the links of the graph that networkx generated for it, with weight 1; all graphs have the node positions of the first, and the radius of each is that for which about the required number of pairs is linked.", "quantifier": "all n, lists of numbers of edges, couplings and outcomes of the generator", "why_tests_cant": "All graphs the generator may return.", "anchors": ["pymnet/models.py:geo"]}
{"id": "C119", "title": "Watts-Strogatz multiplex networks", "statement": "ws(n,edges) has the layers 0, 1, ..., layer i has exactly the links of the network that networkx generated for it, generated for the required number of edges.", "quantifier": "all n, lists of numbers of edges, couplings and outcomes of the generator", "why_tests_cant": "All networks the generator may return. (The number of edges is the required one only if n divides it.)", "anchors": ["pymnet/models.py:ws"]}
{"id": "C120", "title": "Which equations between orbit counts are returned", "statement": "orbit_equations(n,nets,auts,invs), called with the results of graphlets and automorphism_orbits for graphlets with up to at least n nodes, returns. It has exactly one equation for every two orbits, possibly the same, the first of which has 2 or 3 nodes, that have together at most n+1 nodes and whose graphlets have the same layers, and none for others. Every coefficient in the equation of two orbits belongs to an orbit with more nodes than both and fewer than both together, is positive, and is the number of pairs of sets of nodes that together are the nodes of the graphlet and in which its node has the roles of the two orbits (half of it for an orbit and itself).", "quantifier": "all n, all layers, couplings, allowed aspects and numbers of layers the graphlets were generated for, all orders in which sets are iterated", "why_tests_cant": "A wrong coefficient or an extra term only shows for particular pairs of graphlets, whose number grows faster than exponentially, and may depend on the order of iteration.", "anchors": ["pymnet/graphlets/graphlets.py:orbit_equations", "pymnet/graphlets/graphlets.py:combine_orbits", "pymnet/graphlets/graphlets.py:merge_nodes", "pymnet/graphlets/graphlets.py:add_possible_edges"]}
{"id": "C121", "title": "The returned equations hold in every network", "statement": "For every equation that orbit_equations returns and every node of every network: the count of the orbit with fewer nodes, less its number within the graphlet of the other, times the count of the other (halved for an orbit and itself) is the sum over the orbits of the equation of their counts times their coefficients.", "quantifier": "all networks with the right number of layers, all their nodes, all equations returned for all n", "why_tests_cant": "A missing term only shows in networks in which the missing orbit occurs; the claim is about all networks and all pairs of orbits.", "anchors": ["pymnet/graphlets/graphlets.py:orbit_equations", "pymnet/graphlets/graphlets.py:merge_nodes", "pymnet/graphlets/graphlet_measures.py:orbit_counts"]}
{"id": "C122", "title": "Entries of the modularity view", "statement": "ModularityMultilayerNetworkView(net,gamma) of an undirected network: view[i,j,s,r] is the weight of the link if the layers differ, and if they are the same the weight less gamma*k_i*k_j/(2m), where k_i and k_j are the strengths of the nodes within the layer and 2m is the sum of the strengths of all nodes within the layer.", "quantifier": "all undirected networks, any number of aspects, all nodes and layers, all gamma", "why_tests_cant": "All networks, among them those with layers without links.", "anchors": ["pymnet/net.py:ModularityMultilayerNetworkView"]}
{"id": "C123", "title": "Row sums of the modularity view", "statement": "For every node and every layer that has links, the entries of ModularityMultilayerNetworkView(net,gamma) within the layer add up to (1-gamma) times the strength of the node within the layer: to zero by default.", "quantifier": "all undirected networks with aspects and weights, all gamma, all nodes and layers that have links", "why_tests_cant": "All networks and weights.", "anchors": ["pymnet/net.py:ModularityMultilayerNetworkView"]}
{"id": "C124", "title": "Normalising coordinates", "statement": "normalize_coordinates(coords,boxSize) keeps the keys, stretches and shifts both axes, and the least coordinate becomes 0 and the greatest that of the box.", "quantifier": "all dictionaries of coordinates, all boxes, in place or not", "why_tests_cant": "All coordinates, also those that are the same on an axis; a test uses one box.", "anchors": ["pymnet/visuals/layouts.py:normalize_coordinates"]}
{"id": "C125", "title": "The Fruchterman-Reingold layout places all nodes in the box", "statement": "get_fruchterman_reingold_multilayer_layout gives coordinates to exactly the nodes of the network, they lie in the box given and touch its sides, and fixed nodes keep their coordinates.", "quantifier": "all networks, starting coordinates, random numbers, fixed nodes, numbers of iterations, boxes", "why_tests_cant": "The iteration is random and numerical; the claim is about all starting points and all numbers of iterations.", "anchors": ["pymnet/visuals/layouts.py:get_fruchterman_reingold_multilayer_layout"]}
{"id": "C126", "title": "The figure shows the network", "statement": "The figure made by draw for a network with one aspect has each layer, node-layer and link of the network and nothing else; node-layers are placed at their given coordinates or those of their node; layers that come earlier in the order are above later ones.", "quantifier": "all networks with one aspect, all coordinates, orders of layers and sizes", "why_tests_cant": "All networks; figures are not compared in unit tests.", "anchors": ["pymnet/visuals/drawcore.py:draw", "pymnet/visuals/drawnet.py:NetFigure"]}
{"id": "C127", "title": "Normalising a figure", "statement": "normalize_coords maps all node coordinates into the unit square by the same stretching and shifting for all nodes, and changes nothing else.", "quantifier": "all figures, paddings and node sizes that are not negative", "why_tests_cant": "All figures, also those with a single node.", "anchors": ["pymnet/visuals/drawnet.py:NetFigure.normalize_coords"]}
{"id": "C128", "title": "Edges end at their nodes", "statement": "In figures drawn with the backend three.js each edge ends at the positions at which its nodes are drawn.", "quantifier": "all figures", "why_tests_cant": "A picture has to be looked at; the claim is about all coordinates.", "anchors": ["pymnet/visuals/drawbackends/threejs.py:NodeThreeJS.draw", "pymnet/visuals/drawbackends/threejs.py:EdgeThreeJS.draw"]}
{"id": "C129", "title": "get_layout gives coordinates to nodes or node-layers", "statement": "get_layout returns coordinates for every node if nodes are aligned, and for every node-layer otherwise.", "quantifier": "all networks and layouts", "why_tests_cant": "All networks and random numbers.", "anchors": ["pymnet/visuals/layouts.py:get_layout"]}
{"id": "C130", "title": "Choice of property values", "statement": "The properties of layers, nodes and edges are taken from the property dictionary, else from the rule (with its modifiers), else from the default; the rule 'order' gives the k-th object that is not in the dictionary the k-th value of the sequence, which is repeated.", "quantifier": "all dictionaries, rules, modifiers, defaults, and sequences of objects", "why_tests_cant": "A property of sequences of queries of any length, mixed with dictionary values.", "anchors": ["pymnet/visuals/drawassigners.py:PropertyAssigner.__getitem__", "pymnet/visuals/drawassigners.py:PropertyAssigner.get_by_rule", "pymnet/visuals/drawassigners.py:PropertyAssigner.apply_modify_rules"]}
{"id": "C131", "title": "Edge properties do not depend on the direction", "statement": "In undirected networks a link may be given in either direction in property dictionaries, and it has the same property wherever it is drawn.", "quantifier": "all undirected networks, property dictionaries and rules", "why_tests_cant": "All dictionaries and all rules; each link is drawn from both ends.", "anchors": ["pymnet/visuals/drawassigners.py:EdgePropertyAssigner", "pymnet/visuals/drawcore.py:draw"]}
{"id": "C132", "title": "Onnela's weighted clustering coefficient", "statement": "cc_onnela returns 2/(k(k-1)) times the sum, over the pairs of neighbours of the node, of the cube root of the product of the three weights divided by the largest weight; the value lies in [0,1] for positive weights; it equals the unweighted coefficient if all weights are equal; without links it raises ValueError.", "quantifier": "all undirected monoplex networks without self-links and all nodes", "why_tests_cant": "All networks, weights and degrees.", "anchors": ["pymnet/cc.py:cc_onnela"]}
{"id": "C133", "title": "Graphlet correlation distance", "statement": "GCD is the Euclidean distance between the upper triangles of two matrices of the same shape; it is a metric on symmetric matrices with equal diagonals (as correlation matrices are), zero only for equal ones; GCD_matrix is the symmetric matrix of the pairwise distances, with zero diagonal.", "quantifier": "all matrices and all lists of matrices", "why_tests_cant": "The triangle inequality and the zero set range over all matrices.", "anchors": ["pymnet/graphlets/graphlet_measures.py:GCD", "pymnet/graphlets/graphlet_measures.py:GCD_matrix"]}
{"id": "C134", "title": "Couplings given to MultiplexNetwork", "statement": "MultiplexNetwork makes one aspect for each coupling given, coupled as the string, tuple or network says, with weight 1 if none is given, and raises for a coupling that is not allowed.", "quantifier": "all lists of couplings and all constructor flags", "why_tests_cant": "All lists of couplings of all forms.", "anchors": ["pymnet/net.py:MultiplexNetwork.__init__"]}
{"id": "C135", "title": "Networks as couplings", "statement": "If a coupling is a monoplex network of elementary layers, links between layers read the weights of this network, and degrees, strengths and neighbours count them.", "quantifier": "all coupling networks, histories, nodes and layers", "why_tests_cant": "All coupling networks and all histories.", "anchors": ["pymnet/net.py:MultiplexNetwork._get_link", "pymnet/net.py:MultiplexNetwork._get_dim_degree", "pymnet/net.py:MultiplexNetwork._get_dim_strength", "pymnet/net.py:MultiplexNetwork._iter_dim"]}
{"id": "C136", "title": "Strengths in networks without couplings", "statement": "In a multiplex network without couplings, the strength of a node-layer is the sum of the weights of its links within the layer.", "quantifier": "all histories of uncoupled multiplex networks, nodes and layers", "why_tests_cant": "All histories.", "anchors": ["pymnet/net.py:MultiplexNetwork._get_dim_strength"]}
{"id": "C137", "title": "Independent equations", "statement": "independent_equations(n, nl, layers) returns the equations of orbit_equations together with a largest set of them that is linearly independent.", "quantifier": "all numbers of nodes, all lists of layers and all numbers of layers to be used", "why_tests_cant": "All sizes and all sets of layers; independence is about all combinations of equations.", "anchors": ["pymnet/graphlets/independent_equations.py:independent_equations", "pymnet/graphlets/independent_equations.py:eq_network", "pymnet/graphlets/independent_equations.py:three_orbit_equations"]}
{"id": "C138", "title": "Finding equations", "statement": "find_key finds the equation of two orbits in either order exactly if orbit_equations combines these orbits; eqs_in_layers keeps exactly the equations of orbits of graphlets on the given layers.", "quantifier": "all orbits, all tables of graphlets and equations made by graphlets and orbit_equations, all sets of layers", "why_tests_cant": "All sizes of graphlets and all sets of layers.", "anchors": ["pymnet/graphlets/independent_equations.py:find_key", "pymnet/graphlets/independent_equations.py:eqs_in_layers"]}
{"id": "C139", "title": "Elementary cycles from matrices", "statement": "cc_cycle_vector_adj(net, node, layer) of an undirected multiplex network with categorical couplings returns the weights of the ten kinds of elementary cycles around the node on the layer; with links of weight 1 these are the numbers that elementary_cycles returns. None of its assertions fails.", "quantifier": "all construction histories of one-aspect undirected multiplex networks, node-aligned or not, with any weights, and all nodes and layers", "why_tests_cant": "All networks: the assertions are matrix identities.", "anchors": ["pymnet/cc.py:cc_cycle_vector_adj", "pymnet/cc.py:get_full_multiplex_network", "pymnet/net.py:MultilayerNetwork.get_supra_adjacency_matrix"]}
{"id": "C140", "title": "Global coefficient from matrices", "statement": "gcc_aw_vector_adj returns, for every pair of a node and a layer, the weights of the closed and of the possible cycles within a layer, on two and on three layers; gcc_aw_seplayers_adj is the coefficient of all cycles and agrees with gcc_aw if all links weigh 1.", "quantifier": "all construction histories of one-aspect undirected multiplex networks, node-aligned or not, and all weights w1, w2, w3", "why_tests_cant": "All networks of all sizes.", "anchors": ["pymnet/cc.py:gcc_aw_vector_adj", "pymnet/cc.py:gcc_aw_seplayers_adj", "pymnet/cc.py:gcc_aw"]}
{"id": "C141", "title": "Second Moreno coefficient from matrices", "statement": "gcc_vector_moreno2 and gcc_moreno2 return the parts and the coefficient in which cycles that are not their own reversal count twice, and agree with gcc_moreno2_seplayers, if all links weigh 1.", "quantifier": "all construction histories of one-aspect undirected multiplex networks, node-aligned or not, and all weights w1, w2, w3", "why_tests_cant": "All networks of all sizes.", "anchors": ["pymnet/cc.py:gcc_vector_moreno2", "pymnet/cc.py:gcc_moreno2", "pymnet/cc.py:gcc_moreno2_seplayers"]}
{"id": "C142", "title": "First Moreno coefficient from matrices", "statement": "gcc_vector_moreno returns, within a layer, on two and on three layers, the weight of the closed walks divided by the weight of the walks with one link less that end elsewhere; gcc_moreno is the weighted sum of the three.", "quantifier": "all construction histories of one-aspect undirected multiplex networks, node-aligned or not, with any weights, and all weights w1, w2, w3", "why_tests_cant": "All networks of all sizes.", "anchors": ["pymnet/cc.py:gcc_vector_moreno", "pymnet/cc.py:gcc_moreno"]}
{"id": "C143", "title": "Lists of elementary cycles", "statement": "cc_aw_vector(net) returns six lists with one entry for each pair of a node and a layer: the numbers of closed and of possible elementary cycles around it within a layer, on two and on three layers; with links of weight 1 these are the entries of gcc_aw_vector_adj up to order.", "quantifier": "all construction histories of one-aspect undirected multiplex networks with categorical couplings, node-aligned or not", "why_tests_cant": "All networks of all sizes.", "anchors": ["pymnet/cc.py:cc_aw_vector", "pymnet/cc.py:elementary_cycles", "pymnet/cc.py:gcc_aw_vector_adj"]}
{"id": "C144", "title": "Averages of local clustering coefficients", "statement": "gcc_from_lcc(net,lcc) is the mean of the local coefficients of the nodes where they are defined, None if there are none; cc_layers_avg(net,node) is the mean over the layers of the local clustering coefficients of the node.", "quantifier": "all networks, all local coefficients; all construction histories of one-aspect undirected multiplex networks, all nodes", "why_tests_cant": "All networks and all functions passed.", "anchors": ["pymnet/cc.py:gcc_from_lcc", "pymnet/cc.py:cc_layers_avg", "pymnet/cc.py:cc_sequence"]}
{"id": "C145", "title": "The graphlet correlation matrix", "statement": "GCM(orbits) returns the square matrix of the Spearman correlations (average ranks for ties) between the orbit counts extended by one entry 1: it is symmetric, 1 on the diagonal, its entries lie between -1 and 1 and are undefined exactly where an orbit has count 1 for all nodes; neither the names nor the order of the nodes matter.", "quantifier": "all data frames of counts with at least three orbits in which no row is labelled by the number of rows and neither of the first two orbits has count 1 for all nodes", "why_tests_cant": "All counts, all numbers of nodes and orbits, all orders and names.", "anchors": ["pymnet/graphlets/graphlet_measures.py:GCM"]}
{"id": "C146", "title": "The graphlet correlation matrix for all frames of counts", "statement": "GCM(orbits) leaves its argument unchanged, always returns a matrix, uses the counts of all nodes, and does not depend on the names of the nodes.", "quantifier": "all data frames of counts", "why_tests_cant": "All counts and all names of nodes.", "anchors": ["pymnet/graphlets/graphlet_measures.py:GCM"]}
{"id": "C147", "title": "Sizes and labels of nodes", "statement": "draw gives every node that is not in nodeSizeDict the size scalecoeff/sqrt(n) by default (n nodes; so the squares of the sizes of all nodes add up to scalecoeff squared) and its name as a label; nodeSizeRule with the rule 'degree' and 'propscale' gives the number of neighbours times propscale/sqrt(n), to which 'f' and then 'scaleby' are applied; sizes in nodeSizeDict are used unchanged; all documented rules can be used.", "quantifier": "all construction histories of general networks, all dictionaries, coefficients and functions", "why_tests_cant": "All networks, all dictionaries and all functions.", "anchors": ["pymnet/visuals/drawassigners.py:NodeSizeAssigner", "pymnet/visuals/drawassigners.py:NodePropertyAssigner", "pymnet/visuals/drawassigners.py:NodeLabelAssigner", "pymnet/visuals/drawcore.py:draw"]}
{"id": "C148", "title": "The layout of node-layers", "statement": "get_fruchterman_reingold_multilayer_layout with alignedNodes=False gives coordinates to exactly the node-layers of the network; they fill the unit square; fixed node-layers with given coordinates keep their relative positions.", "quantifier": "all construction histories of general networks with any number of aspects, starting coordinates, random numbers, fixed node-layers and numbers of iterations", "why_tests_cant": "All networks, starting coordinates and numbers of iterations.", "anchors": ["pymnet/visuals/layouts.py:get_fruchterman_reingold_multilayer_layout", "pymnet/visuals/layouts.py:normalize_coordinates"]}
{"id": "C149", "title": "Aggregating into a given network", "statement": "aggregate(net,aspects,newNet=target) adds to the target, which need not be empty: its nodes become those of both, every link between different nodes gains the total weight of the links of net that collapse onto it, and nothing else changes; without newNet it is as if an empty network like net with the remaining aspects were given; a target with another number of aspects is refused.", "quantifier": "all construction histories of the source and of the target, both directions, all sets of aspects", "why_tests_cant": "All pairs of networks; what happens depends on the directions of both and on the order in which edges are listed.", "anchors": ["pymnet/transforms.py:aggregate"]}
{"id": "C150", "title": "A multiplex network copied into a general network", "statement": "subnet(net,nodes,*layers,newNet=MultilayerNetwork(aspects=net.aspects)) of a multiplex network fills the general network with the selected nodes, layers and node-layers of net and with all links between them, coupling links included; names that are not in net are ignored.", "quantifier": "all construction histories of multiplex networks, all selections of nodes and layers", "why_tests_cant": "All networks and selections; two copying strategies are chosen per node by its degree, and couplings are computed.", "anchors": ["pymnet/transforms.py:subnet", "pymnet/net.py:MultiplexNetwork"]}
{"id": "C151", "title": "Web page of a network", "statement": "webplot(net) of a multiplex network with one aspect gives a page whose script passes to JSON.parse a text of the same JSON value as the text that write_json(net) returns, whether the page is returned or written to a file; networks with more aspects are refused with an AssertionError.", "quantifier": "all construction histories of multiplex networks with one aspect, all names of nodes and layers that are integers or strings, integer weights", "why_tests_cant": "Names are arbitrary strings that pass through JSON, a JavaScript literal and HTML; any character can break any of the three.", "anchors": ["pymnet/visuals/webplots.py:webplot", "pymnet/netio.py:write_json"]}
{"id": "C152", "title": "The text of write_json", "statement": "The text that write_json(net) returns for a multiplex network with one aspect is JSON, whatever characters names consist of, and its only value has the names of the nodes and layers, once each, and the links of every layer, once each, with the positions of their nodes, their weight and the position of their layer.", "quantifier": "all construction histories of multiplex networks with one aspect, all names of nodes and layers that are integers or strings, integer weights", "why_tests_cant": "Names are arbitrary strings, including quotes, control characters and characters outside the basic plane; networks are arbitrary.", "anchors": ["pymnet/netio.py:write_json"]}
{"id": "C153", "title": "Random node lists and the network on them", "statement": "random_nodelists(pool,k,layers) yields, whatever is drawn, exactly `layers` lists of k different nodes of the pool 0,...,pool-1, all such sequences of lists being possible, and raises ValueError at the first item if k is larger than the pool; er_multilayer_partially_interconnected(random_nodelists(pool,k,layers),p) is a network with the layers 0,...,layers-1, each with exactly the k nodes drawn for it.", "quantifier": "all sizes of the pool, numbers of nodes and layers, all draws, all probabilities and random numbers, Python 2 and 3", "why_tests_cant": "Quantifies over all outcomes of the random number generator and all sizes.", "anchors": ["pymnet/sampling/creators.py:random_nodelists", "pymnet/sampling/creators.py:er_multilayer_partially_interconnected"]}
{"id": "C154", "title": "The isomorphism backend does not matter", "statement": "Whichever of the backends \"nx\" and \"bliss\" are installed, and whichever is named, is_isomorphic gives the same result, True exactly for isomorphic networks, and get_isomorphism finds an isomorphism or does not with all of them alike; get_complete_invariant and get_automorphism_generators use PyBliss also with \"auto\"; a backend that is not installed or cannot do the task is refused with an AssertionError.", "quantifier": "all pairs of undirected networks with at least one aspect, all allowed aspects, all sets and orders of installed backends that are correct, all strings as the name of the backend", "why_tests_cant": "Quantifies over all pairs of networks and all correct implementations of the graph libraries.", "anchors": ["pymnet/isomorphisms/__init__.py:is_isomorphic", "pymnet/isomorphisms/__init__.py:get_isomorphism", "pymnet/isomorphisms/__init__.py:get_complete_invariant", "pymnet/isomorphisms/__init__.py:get_automorphism_generators"]}
{"id": "C155", "title": "Equal networks have equal hashes", "statement": "hash(net) is defined for every network, networks that are == have the same hash, so that they can be members of sets and keys of dictionaries, and networks with different content have different hashes unless two pickles collide.", "quantifier": "all histories of general and multiplex networks, every way of pickling from which the state can be restored, every hash of byte strings", "why_tests_cant": "Quantifies over all pairs of equal networks, whatever calls built them.", "anchors": ["pymnet/net.py:MultilayerNetwork.__hash__", "pymnet/net.py:MultilayerNetwork.__eq__", "pymnet/net.py:MultiplexNetwork.__eq__"]}
{"id": "C156", "title": "Sub-networks compose", "statement": "subnet(subnet(net,s1),s2) is == to subnet(net,s) where s selects the nodes and elementary layers that both s1 and s2 select; leaving out the links in one of the steps is leaving them out.", "quantifier": "all general networks with any number of aspects, directed or not, node-aligned or not, all selections; multiplex networks and selections of layers that exist", "why_tests_cant": "Quantifies over all networks and pairs of selections.", "anchors": ["pymnet/transforms.py:subnet"]}
{"id": "C157", "title": "Relabelling composes", "statement": "relabel(relabel(net,f),g) is == to relabel(net,g after f), for renamings that keep different names different.", "quantifier": "all general networks and multiplex networks, all pairs of injective renamings of nodes and elementary layers", "why_tests_cant": "Quantifies over all networks and renamings.", "anchors": ["pymnet/transforms.py:relabel"]}
{"id": "C158", "title": "Relabelling and isomorphism agree", "statement": "A network and its relabelled copy are isomorphic and have the same complete invariant, if only names of the allowed aspects are changed; and if two networks whose links all have one weight are isomorphic, relabel(net1,*get_isomorphism(net1,net2)) == net2.", "quantifier": "all undirected general networks with at least one aspect, all undirected multiplex networks with missing value 0 and categorical or ordinal couplings that are node-aligned, or have one aspect with categorical couplings, without self-links written through an intra-layer network, all injective renamings, all correct backends", "why_tests_cant": "Quantifies over all networks, renamings and correct graph libraries.", "anchors": ["pymnet/transforms.py:relabel", "pymnet/isomorphisms/__init__.py:is_isomorphic", "pymnet/isomorphisms/__init__.py:get_isomorphism", "pymnet/isomorphisms/__init__.py:get_complete_invariant"]}
{"id": "C159", "title": "Aggregation composes", "statement": "aggregate(aggregate(net,a),b) has the same nodes, elementary layers, node-layers and weights as aggregating over the aspects of a and b at once, provided that no weight is negative in a node-aligned network of which an aspect is left.", "quantifier": "all general networks with missing value 0, all pairs of lists of different aspects", "why_tests_cant": "Quantifies over all networks and choices of aspects.", "anchors": ["pymnet/transforms.py:aggregate"]}
{"id": "C160", "title": "Thresholds commute with other transformations", "statement": "threshold(threshold(net,t1),t2) is == to threshold(threshold(net,t2),t1), thresholding twice with the same rule is thresholding once, threshold(subnet(net,s),t) is == to subnet(threshold(net,t),s), and threshold(relabel(net,f),t) is == to relabel(threshold(net,t),f).", "quantifier": "all node-aligned general networks, all node-aligned multiplex networks with missing value 0 and categorical or ordinal couplings, without self-links written through an intra-layer network, all thresholds and rules, all selections (of existing layers, for multiplex networks), all injective renamings (that keep the names of layers of ordinal aspects)", "why_tests_cant": "Quantifies over all networks, thresholds, selections and renamings.", "anchors": ["pymnet/transforms.py:threshold", "pymnet/transforms.py:subnet", "pymnet/transforms.py:relabel"]}
{"id": "C161", "title": "Selecting nodes commutes with aggregation", "statement": "aggregate(subnet(net,nodes,None,...),all aspects) is == to subnet(aggregate(net,all aspects),nodes).", "quantifier": "all general networks with missing value 0, all multiplex networks with missing value 0 and categorical or ordinal couplings that are node-aligned, or have one aspect with categorical couplings, without self-links written through an intra-layer network, all selections of nodes", "why_tests_cant": "Quantifies over all networks and selections.", "anchors": ["pymnet/transforms.py:aggregate", "pymnet/transforms.py:subnet"]}
{"id": "C162", "title": "Renaming commutes with aggregation", "statement": "aggregate(relabel(net,f),all aspects) is == to relabel(aggregate(net,all aspects),f), for renamings of nodes and elementary layers that keep different names different.", "quantifier": "all general networks with missing value 0, node-aligned or not, all multiplex networks with missing value 0 and categorical or ordinal couplings that are node-aligned, or have one aspect with categorical couplings, without self-links written through an intra-layer network, all injective renamings", "why_tests_cant": "Quantifies over all networks and renamings.", "anchors": ["pymnet/transforms.py:aggregate", "pymnet/transforms.py:relabel"]}
{"id": "C163", "title": "net.A is a mapping of the layers", "statement": "Iterating over net.A gives every layer of the multiplex network exactly once, len(net.A) is the product of the numbers of elementary layers of the aspects, and net.A[L] raises KeyError exactly if there is no layer L.", "quantifier": "all histories of a multiplex network, all layers", "why_tests_cant": "Quantifies over all histories; layers are added as side effects of many calls.", "anchors": ["pymnet/net.py:MultiplexIntraNetDict", "pymnet/net.py:MultiplexNetwork.add_layer"]}
{"id": "C164", "title": "net.A keeps the contract of a mutable mapping", "statement": "After del net.A[L] and net.A.pop(L) the layer L is not in net.A; net.A.clear() ends with an empty mapping; net.A.setdefault and net.A.update act like those of a dictionary.", "quantifier": "all histories of a multiplex network, all layers and dictionaries of networks", "why_tests_cant": "Quantifies over all histories, and over the calls of a loop that may not end.", "anchors": ["pymnet/net.py:MultiplexIntraNetDict"]}
{"id": "C165", "title": "Flat view of a network", "statement": "FlatMultilayerNetworkView(net) shows the network as one without aspects whose nodes are the node-layers: fnet[u,v] is the weight of the link from u to v, and fnet[u] is the node for the node-layer u.", "quantifier": "all general networks, all their node-layers", "why_tests_cant": "The class has no tests; that it fails must be known for every network, number of aspects and pair of node-layers.", "anchors": ["pymnet/net.py: FlatMultilayerNetworkView", "pymnet/net.py: MultilayerNetwork.__getitem__"]}
{"id": "C166", "title": "Isomorphism is an equivalence relation", "statement": "is_isomorphic(net,net) is True; exchanging the two networks does not change the outcome of is_isomorphic; if is_isomorphic is True for net1 and net2, and for net2 and net3, it is for net1 and net3; and if net1 == net2, is_isomorphic(net1,net2) is True. This holds for every choice of allowed aspects and does not depend on the backend of each call.", "quantifier": "all undirected general networks with at least one aspect, all undirected multiplex networks with missing value 0 and categorical or ordinal couplings that are node-aligned, or have one aspect with categorical couplings, without self-links written through an intra-layer network; all sets of allowed aspects; all correct backends", "why_tests_cant": "Relates the answers for all pairs and triples of networks, and for any mixture of graph libraries.", "anchors": ["pymnet/isomorphisms/__init__.py:is_isomorphic", "pymnet/isomorphisms/isomcore.py:AuxiliaryGraphBuilder", "pymnet/net.py:MultilayerNetwork.__eq__"]}
{"id": "C167", "title": "Isomorphic networks have the same diagnostics", "statement": "If is_isomorphic(net1,net2) is True, whatever aspects are allowed to change, the networks have the same number of node-layers and of edges, degs(net1) and degs(net2) are the same mapping from degrees to numbers of node-layers, and density(net1) == density(net2).", "quantifier": "all undirected general networks with at least one aspect, all undirected multiplex networks with missing value 0 and categorical or ordinal couplings that are node-aligned, or have one aspect with categorical couplings, without self-links written through an intra-layer network (density: node-aligned networks without self-links and with two or more node-layers); all sets of allowed aspects; all correct backends", "why_tests_cant": "Relates two functions of the library on all pairs of networks that one of them calls isomorphic.", "anchors": ["pymnet/isomorphisms/__init__.py:is_isomorphic", "pymnet/diagnostics.py:degs", "pymnet/diagnostics.py:density", "pymnet/net.py:MultilayerNetwork.edges"]}
{"id": "C168", "title": "Distances do not depend on names", "statement": "If nodes and layers are renamed without two of them getting the same name, dijkstra on the renamed network from the renamed sources ends exactly if dijkstra on the network from the sources does, and then the distance of the new name of each node-layer is the distance of the node-layer; no other node-layers get a distance.", "quantifier": "all general networks, all multiplex networks with missing value 0 and categorical or ordinal couplings that are node-aligned, or have one aspect with categorical couplings, without self-links written through an intra-layer network; without negative weights; all renamings of nodes and layers without collisions (keeping the layers of ordinal aspects), all sources that are node-layers of the network, all heaps that pop a least entry in each of the two runs", "why_tests_cant": "The order in which dijkstra visits node-layers of the same distance depends on how the names compare, so that the two runs can differ in every step; the distances must agree for all networks and renamings.", "anchors": ["pymnet/diagnostics.py:dijkstra", "pymnet/transforms.py:relabel"]}
{"id": "C169", "title": "A part of a network has no shorter paths", "statement": "If net is replaced by subnet(net,...) or threshold(net,...), dijkstra from sources that are still there ends if it ends in net, and each node-layer that it gives a distance in the part has a distance in net that is not larger.", "quantifier": "all general networks and all multiplex networks with missing value 0 and categorical or ordinal couplings that are node-aligned, or have one aspect with categorical couplings, without self-links written through an intra-layer network; directed or not, without negative weights; thresholds with every rule of node-aligned networks, selections (in multiplex networks: with links and of layers that exist), all sources that are node-layers of the part, all heaps that pop a least entry in each of the two runs", "why_tests_cant": "Relates the distances in all networks to those in all of their parts; dijkstra visits the node-layers of the two in unrelated orders.", "anchors": ["pymnet/diagnostics.py:dijkstra", "pymnet/transforms.py:subnet", "pymnet/transforms.py:threshold"]}
{"id": "C170", "title": "Distances satisfy the triangle inequality and are symmetric", "statement": "dijkstra gives a source the distance 0; if b has the distance t from a, each node-layer c with a distance t' from b has one from a that is at most t+t'; and in undirected networks b has the same distance from a as a from b, or neither has one.", "quantifier": "all general networks, all multiplex networks with missing value 0 and categorical or ordinal couplings that are node-aligned, or have one aspect with categorical couplings, without self-links written through an intra-layer network; without negative weights, directed or not (symmetry: undirected); all node-layers, all runs of dijkstra that end, all heaps that pop a least entry", "why_tests_cant": "Relates runs of dijkstra from different sources, for all networks and node-layers.", "anchors": ["pymnet/diagnostics.py:dijkstra"]}
