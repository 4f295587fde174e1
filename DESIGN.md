# Formal model of pymnet (Multilayer-networks-library)

Source: `/repo` (Python), read as text. Model and proofs: `/verif/lean` (Lean 4.33.0 + Mathlib).

## 1. Trusted base

* Lean's kernel.
* Axioms: at most `propext`, `Classical.choice`, `Quot.sound` (Lean/Mathlib standard). No own axioms,
  no `sorry`, no `native_decide`, no `bv_decide`.
* Faithfulness of the hand-written model to the Python source. Every model definition carries a comment
  with the file and lines it models and the simplifications made.

## 2. Modelling conventions

| Python | Lean |
|---|---|
| node and layer names (hashable objects) | an arbitrary type `α` with decidable equality. Names are assumed not to be tuples, `None` or slices. |
| node-layer tuple `(i,s1,...,sd)` | `List α` (length `d+1` when well formed) |
| link tuple `(i,j,s1,r1,...)` | `List α` (interleaved) |
| `dict` | `Dict κ ν`, association list in insertion order, first binding wins, key-unique by invariant |
| `set` | duplicate-free list. Iteration order of Python sets is unspecified: theorems quantify over every state satisfying the invariant, and the invariant is closed under permuting these lists, so they hold for every iteration order. |
| weights | arbitrary type `W` with decidable equality; `AddCommMonoid W` where sums occur. IEEE floats are not modelled; arithmetic is exact. |
| exceptions | values (`Err`). A mutating call returns the post-state *and* an optional error, because Python exceptions do not roll back. |
| methods overridden by `MultiplexNetwork` | a record `View` of functions (dynamic dispatch table) produced from either class; code shared by both classes (`edges`, `len(edges)`, transforms) is written once over `View`. |
| generators | the list they yield |
| random choices, heap tie-breaks, set orders in algorithms | parameters / relations universally quantified in the theorems |

Not modelled: drawing with matplotlib, web front ends, actual file system access, networkx/numpy/bliss internals
(they are parameters with the behaviour assumed in the theorem statement), floating point, pickling (an argument of `hash`), performance.

## 3. Layout

* `Verif/Py/*` – Python dict/set/product library and lemmas.
* `Verif/Model/*` – the model, function by function.
* `Verif/Spec/*` – small specifications used in statements.
* `Verif/Proofs/*` – helper lemmas.
* `Verif/Props/*` – the property theorems with non-vacuity examples; one file per area.

## 4. Plan per property

| id | model | proof |
|---|---|---|
| C01 | `MNet` with `setItem/addNode/addLayer/getItem`; histories are `List Op` | refinement to a map computed from the history alone; induction over the history |
| C02 | same | invariant |
| C03, C04, C06 | neighbour iterators, degree, strength | invariant: forward and reverse dict mirror each other |
| C05 | total degree counter | false: witness. Exact characterisation of the drift over every history; correct without deletions (`_partial`) |
| C07 | `setItem` error value | false: witness (undirected self-link); proved otherwise (`_partial`) |
| C08, C15, C16 | registries | refinement of the registries to sets computed from the history |
| C09, C10, C17 | index handling | direct |
| C11 | slicing | false: witness; correct when the requested index equals the node's own index (`_partial`) |
| C12, C13 | `edges` over `View` | enumeration lemma, double counting |
| C14 | `eq` | counting argument |
| C18–C25 | `MPlex` (parent and layer networks) | invariants over histories; false parts by witnesses |
| C26–C34, C54 | transforms over `View`; `Spec.Looks` says what a user sees of a network | the result is a network built by public calls; folds over the edge list, using C01/C12; multiplex instances through the shared dispatch table |
| C35, C36 | diagnostics | double counting |
| C37, C38 | Dijkstra as a transition relation with arbitrary minimal pop | loop invariant, well-founded measure; zero-weight divergence by witness |
| C39, C40, C59–C65 | clustering coefficients over a linearly ordered field; a result `none` is the value of `undefReturn` | loops as finite sums, then algebra; variants through the aggregated network (C54); false parts by witnesses |
| C41, C55–C57 | auxiliary graph construction; the graph isomorphism backend is a parameter with a specification | both directions of the reduction, then transport along it |
| C42 | inclusion–exclusion over lists of sets | induction |
| C43 | `itertools.combinations`, the argument handling and both built-in checks | enumeration lemma; what the checks decide, from the `subnet` and underlying-graph theorems |
| C58 | the ESU sampler | invariants of the recursion; every subgraph has exactly one path in the search tree |
| C73–C76 | `conf` and `single_layer_conf`: shuffles and draws are arguments, pairs of stubs as lists | invariant of the pairs of stubs (every stub once, tracked positions of self-links and multiple links) through all repairs |
| C77, C78 | `conf_overlaps`: as C73, with the set of used edges and the repairs of links that another combination has | the invariant of C73, extended by the used edges; then an invariant of the loop over the combinations |
| C79–C83 | `elementary_cycles` (brute force and through the aggregated network), the `_aw` coefficients | every loop is a finite sum; the sums are numbers of closed walks of a given word; the aggregated version through C54; false parts by witnesses |
| C84–C86 | the multiplex branches of `subnet` and `relabel` | the calls made on the result are a history (`BuiltX`: what a history has named and written so far); loop invariants |
| C87–C89 | `graphlets` (the generator): node numbers by an embedding, canonical forms and `str` as parameters | state invariant of the dictionary of invariants; C84 for the copies; every connected network has a node that can be removed, and is an extension of what is left |
| C90–C94 | `touching_orbit_nodes`, `orbit_counts`, `orbit_counts_all`, `orbit_numbers`, `ordered_orbit_list`, `automorphism_orbits`: iteration orders of sets are parameters | every connected set has a connected subset with one node less; C84, C88, C89 identify the graphlet of a set; composition of isomorphisms with automorphisms; sums of indicators are cardinalities; invariant over processed nodes (links of processed nodes removed, sets with a processed node counted) |
| C95–C97 | `dijkstra_mlayer_prune` (recursion with a depth bound, as `dijkstra`), `multiplex_density`, `multiplex_degs`, `overlap_degs` | the forest of C37 is acyclic apart from its roots, so the recursion copies exactly the ancestors; invariant of the copied part; per-layer networks by C25 and the theorems of `degs` and `density` |
| C98–C101 | netio.py; files are lists of lines, written files a dictionary; texts are lists of characters, parsing of numbers and `str` are parameters | texts are split again into the fields they were joined of; the calls made on the result are a history; C25 for what is written; a grammar of UCINET files (`Spec.UciFile`) and one lemma per kind of line |
| C102–C106 | independent_equations.py: `SCCs`, `independents_and_dependents`, `all_inds_and_deps`, `definitely_independent`, `redundant_orbits`; orbits and equations are arbitrary names, iteration orders of sets are parameters | depth-first search invariants (white paths, finishing order); loop invariants; false parts by witnesses; linear independence over ℚ from an orbit of its own |
| C107–C110 | `coefficient`, `coefficient_help`, `orbit_name`, `subtrahend` | the loops run over all pairs of sets with a given intersection; pairs of counted sets are classified by their union, whose orbit is unique (C91), and carried to the graphlet by the isomorphism; partitions by C67 |
| C111–C112 | `subnet_iter` (general and multiplex networks) | the product of the non-empty combinations of each aspect is the set of choices; each `subnet` call by C31/C84; the loop adding links back is a run of `net[…]=` calls |
| C113 | `net.A[layer]=val` | emptying the layer leaves the network of a history without the writes to the layer (filtered history); then `subnet` copies, by C84's lemmas |
| C114–C115 | nxwrap.py mappings `adj`, `adj[u]`, `adj[u][v]` | each access is one public call on the network; statement about `Spec.Graph`, a network with nodes `N` and symmetric weights `w` |
| C116 | `randomize_nodes_by_layer` | loop invariant per layer; the pairs of the zipped lists are a bijection |
| C117–C119 | `er_multilayer_partially_interconnected`, `geo`, `ws` | loop invariants over the written content; the graph generators are arguments |
| C44, C45, C69–C72 | model generators; random outcomes are arguments, a run with too few or impossible outcomes ends in `Stop.more` | arithmetic over the reals; enumeration; loop invariants with a postcondition for every ending (`Ends`) |
| C120, C121 | `orbit_equations`, `combine_orbits`, `merge_nodes`, `add_possible_edges`; node names are integers, the layer permutations and sets are iterated in the order of the lists | every network that is made is a graphlet with the node shared by both parts (so its coefficient is that of C108); conversely every covering of a graphlet arises by gluing, merging and adding links, up to isomorphism; for C121 with merged nodes (3 and 3 nodes) the links of each layer are counted to compare different merges; with at most 4 nodes one of the two orbits has two nodes, so only the set of layers of its link matters, a cyclic shift of some permutation of the layers maps one such set to the other, and isomorphic combinations have an isomorphism that keeps the two nodes |
| C122, C123 | `ModularityMultilayerNetworkView` with exact numbers, over a general network | the strength in a layer is the sum over the nodes (via C06); the dictionary of layer weights is built layer by layer; the sums telescope |
| C124, C125 | `normalize_coordinates` and the layout loop over an ordered field; square root and random numbers are parameters | bounds of a list; the forces keep the keys; the last step normalises |
| C126–C129 | the `NetFigure` that `draw` builds, its normalisation, three.js coordinates, `get_layout` | enumeration of node-layers and neighbours (C12); sortedness of the stack of layers; false parts by witnesses |
| C130, C131 | `PropertyAssigner` with the counter of the rule "order" as state | induction over the sequence of queries |
| C132 | `cc_onnela`; the cube root is a parameter | the loop over pairs is a finite sum; monotonicity of the cube root |
| C133 | `GCD`, `GCD_matrix`; arrays are lists of rows, the square root is that of ℝ | the loop is the norm of a vector of `EuclideanSpace`; loop invariant for the matrix |
| C134–C136 | the coupling argument of `MultiplexNetwork`; couplings that are networks or `None` | case analysis of the argument; the theorems on children and couplings of C15–C20; false parts for every network of the kind |
| C137, C138 | `independent_equations` and all its helpers | for three nodes: all left sides have two nodes, and a graphlet of three nodes is covered by one pair of orbits only, so that the right sides are disjoint; for two and for four or more nodes: the exception is found by an invariant of the loops (no equation of the orbits q1, q1, q2 is ever stored) |
| C139–C142 | `cc_cycle_vector_adj`, `gcc_aw_vector_adj`, `gcc_aw_seplayers_adj`, `gcc_vector_moreno`, `gcc_moreno`, `gcc_vector_moreno2`, `gcc_moreno2`, `get_full_multiplex_network`, numpy's product and sum of square matrices | the lists of rows are tables of Mathlib matrices over the pairs of nodes and layers; a product of matrices is the weight of walks (`Spec.weigh`); the assertions follow from symmetry, from which steps change the layer, and in node-aligned networks from `cf = fc` and `c² = (b-1) + (b-2)c` |
| C143, C144 | `cc_aw_vector`, `cc_layers_avg`, `gcc_from_lcc`, with a flag for the version of Python | `C79_node_layer` for every entry; `C65_sequence` and a loop whose steps raise one exception; the local coefficient is an arbitrary function |
| C145, C146 | `GCM` with assignment to `DataFrame.loc`, `rankdata`, `corrcoef` and `spearmanr` as documented | list sums as sums over `Fin n`; average ranks are strictly monotone; Cauchy–Schwarz; invariance of sums and counts under permutations; counterexamples |
| C147 | `NodePropertyAssigner`, `NodeLabelAssigner`, `NodeSizeAssigner` of a view | evaluation of the rules; degrees by C04 and the number of nodes by C08 |
| C148 | the layout loop with `alignedNodes=False` | as C125; the node-layers of links and of the loops over layers exist |
| C149 | `aggregate` with `newNet` | as C26, starting from the links of the target; undirected contributions are the sum of those of both directions |
| C150 | `subnet` of the view of a multiplex network into a general one | as C28, for any view with sound iteration whose links can all be read |
| C151 | `webplot` with its template | a reader of the page (end of script, JavaScript string literal, JSON) as specification; the literal of a plain name is the name |
| C152 | the text of `write_json` | a JSON reader as specification; it reads back every name, number, list and dict that is written |
| C153 | `random_nodelists` and its use in `er_multilayer_partially_interconnected` | draws as arguments, checked by the model; then C117 |
| C154 | the registry of backends and the choice by name | the choice is a correct backend that can do the task; then C41, C55–C57 |
| C155 | `hash(net)` with pickling and the hash of byte strings as arguments | histories that are `==` with different states; idempotent calls leave the state as it is |
| C156 | `subnet` of `subnet` | C28 twice and C29's equality of networks that look the same |
| C157 | `relabel` of `relabel` | C30 twice |
| C158 | `relabel` and `get_isomorphism` | C30 with C41, C55, C56 |
| C159 | `aggregate` of `aggregate` | C26 twice and sums over fibres |
| C160 | `threshold` with `threshold`, `subnet`, `relabel` | C28, C30 and C32 in both orders give the same contents |
| C161 | `aggregate` over all aspects and `subnet` of nodes | C26 and C28 in both orders; false for nodes on no layer |
| C162 | `aggregate` over all aspects and `relabel` | C26 and C30 in both orders, sums reindexed by the renaming |
| C163 | `MultiplexIntraNetDict` as a mapping | the keys of the dictionary along every history: no key twice, and exactly the product of the aspects |
| C164 | `MutableMapping` methods of `net.A` | from C113 and C163; false for deletion: `__delitem__` does nothing |
| C165 | `FlatMultilayerNetworkView` | the lookups evaluated for every network; false, as the methods cannot run |
| C166 | `is_isomorphic` and `==` | C41 and C56 with a canonical form that exists; the identity for equal networks |
| C167 | `is_isomorphic`, `degs`, `density`, `edges` | C41 with C35 and C36; an isomorphism maps the counted sets onto each other |
| C168 | `dijkstra`, `relabel` | C37 and C38 with C30 and C85; walks of the network and of the renamed network correspond |
| C169 | `dijkstra`, `subnet`, `threshold` | C37 and C38 with C28, C32 and C84; walks of the part are walks of the network |
| C170 | `dijkstra` | C37; walks can be joined and, in undirected networks, reversed |
| C46, C66 | orbit merging loop over generators of the isomorphism backend | incremental transitive closure invariant; closure under generators of a finite group is the orbit relation; C57 |
| C47, C67, C68 | enumerators; the iteration order of a set is a parameter | induction; recursion on the block of the first element |
| C48 | decorator as a state machine with outcome | witness for the raising call; proved for returning calls (`_partial`) |

## 5. Disagreements between code and documented behaviour

Each is proved in Lean as a concrete run (`Cxx_false…`), next to the part that does hold.

* C05 – total degree of directed networks drifts after deleting a one-way link.
* C07 – deleting an undirected self-link raises `KeyError`.
* C11 – slicing uses the first instead of the second index of an aspect (net.py 498).
* C14 – `==` of networks of different alignment raises `AttributeError`.
* C22 – non-aligned multiplex networks: ordinal inter-layer links are not iterated; with several aspects
  categorical iteration yields node-layers that are not linked and the degree raises `TypeError`.
* C23 – `'none'` coupling: reading an inter-layer link raises `Exception` instead of returning `noEdge`.
* C24 – the intra-layer networks use `noEdge=0` whatever the multiplex network uses.
* C49 – self-links through `net.A[s]` are iterated but read `noEdge`.
* C53 – restricted multiplex iteration yields nothing when a restricted index differs from the node-layer's own.
* C52 – total strength of directed multiplex networks counts inter-layer links once.
* C26 – `aggregate` with self-edges raises `KeyError` when the weights of an undirected self-link cancel.
* C28, C29 – `subnet` of a non-aligned network drops nodes that are on no layer.
* C29, C30 – `add_node(n,layer=('a',))` on a non-aligned network with two or more aspects accepts the incomplete tuple and
  registers it; no node-layer listing shows it, so copies and relabelled networks lose it and are not `==` to the original.
* C32 – `threshold` raises `NameError` for every non-aligned network that has a node-layer.
* C38 – `dijkstra` never returns when a closed walk of weight zero can be reached from the sources (an undirected
  link of weight 0 is enough); this is exactly when it does not return.
* C41 – `is_isomorphic` and `get_isomorphism` raise `AssertionError` instead of answering when the names that must not
  change take different numbers of values in the two networks; for networks without aspects the auxiliary graph has
  vertices without colour (nodes are looked up as names and as 1-tuples).
* C58 – the sampler in its default mode raises `KeyError` if the network has a self-link (it deletes the links of each
  node-layer, see C07), and does not copy links of weight 0 if `noEdge` is not 0.
* C40 – `cc_barrett` returns the undefined value for nodes with one neighbour where `cc_barrett_explicit` returns 0;
  `cc_barrett_optimized` leaves out nodes whose links cancel in the aggregated network.
* C59 – the Zhang coefficients raise `ValueError` on a network without links.
* C61 – `lcc_battiston1/2` divide the documented quotient by `b-1` (`b-2`); the documented values on full networks are
  those of neither formula.
* C62 – `lcc_brodka` with a weighted network: the aggregated network gives another neighbourhood (weights instead of
  layers are compared with the threshold). The documented `≤ t` is `≥ t` in the code.
* C63 – `lcc_criado` counts the links of the layer, the documentation says those of the aggregated network.
* C64 – `gcc_contraction_o` differs from `gcc_contraction_o2` and `_o_full` with more than one layer.
* C67 – `partitions_with_remainder` uses `xrange` without the fallback of the other modules: `NameError` in Python 3.
* C48 – a wrapped networkx function that raises leaves `networkx.Graph` replaced by the view class (no `try/finally`).
* C69 – `er` with probability 0 and at least two nodes raises `ZeroDivisionError`.
* C70 – `er_multilayer` adds only nodes and layers that get a link, and never links a node to itself on another layer.
* C72 – `er_overlaps_match_aggregated`: layers have more than `edges` links if they are in combinations (the code draws
  `len(layers)*m` overlapping edges and takes off only `m`); for the single combination of two layers, `edges+m`.
* C75 – `single_layer_conf` repairs a self-link with two links on four further nodes: with at most four nodes it never
  returns once the shuffled stubs have a self-link, also for degrees that a simple network has (2, 2, 2).
* C78 – `conf_overlaps` adds only nodes and layers that get a link.
* C81, C82 – `elementary_cycles`, `sncc_aw` with `anet` and `gcc_aw` use `int()` of the aggregated weights as numbers of
  links: with weights 2 on one triangle `gcc_aw` is 2.
* C83 – in node-aligned networks the numbers `acfca`, `acfac`, `acfcac` are computed as if every two layers were coupled.
* C86 – `subnet` and `relabel` pass the normalised couplings to the constructor, which does not accept the tuple it made of
  a network: both raise `AssertionError` for multiplex networks coupled with a network.
* C93 – `orbit_counts_all` removes all links of the network it is given.
* C97 – `overlap_degs` raises `NameError` for every multiplex network: `subnet` is not imported.
* C98 – `read_edge_files` never opens the layer and node files; with `ignoreSelfLink=False` a self-link raises `KeyError`.
* C100 – `read_edge_files` cannot read what `write_edge_files` wrote (three columns instead of four: `ValueError`); layers
  with the same text overwrite each other's file.
* C101 – `read_ucinet`: a level without non-zero entry raises `KeyError` (default arguments); nodes without links of a one-level
  file are lost; any format is read as a full matrix (the test is always true); labels keep their case; a row with an embedded
  label that is broken before its last field raises `AssertionError`.
* C103 – `independents_and_dependents` counts an equation of three orbits without links as dependent; the independent equations of a
  component with an equation of three orbits may follow from each other.
* C104 – `all_inds_and_deps` raises `UnboundLocalError` if no choice has a dependent equation.
* C106 – whether `redundant_orbits` returns or raises `ValueError` depends on the order of iteration of a set.
* C110 – `subtrahend` raises `NameError` in Python 3 (`xrange`); in Python 2 it counts only sets that share nothing but the node, which is
  less than the equations need (first for graphlets with four nodes and orbits with three).
* C112 – `subnet_iter(…,remove_edges=True)` adds links of the whole network to each sub-network: removed nodes reappear and
  networks are yielded several times. For multiplex networks the coupling links are not left out, so assigning one raises
  an exception.
* C113 – `net.A[layer]=val` in a network that is not node-aligned: nodes that were on the layer before stay registered there;
  neighbours and degrees still show coupling links to them.
* C115 – the networkx view takes the first of several attributes for the weight; deleting a missing link raises nothing and adds its nodes;
  deleting a self-link raises `KeyError`; `adj[u]=mapping` keeps the links `u` had.
* C116 – `randomize_nodes_by_layer` drops nodes that are on no layer and raises for couplings that are networks (see C86).
* C121 – `merge_nodes` keeps one of several isomorphic merged graphlets, although different links may be added to them afterwards, and
  `combine_orbits` tries only two permutations of the layers per tuple; so for 6 nodes, or 5 nodes and three layers that may be renamed, terms
  seem to be missing (not proved; the theorem is restricted to 5 nodes and layers that keep their names, and to 4 nodes otherwise).
* C122 – the view of a network without aspects cannot be made (`mnet[node][(COLON,)]` wraps the tuple again), nor that of a network of total weight
  zero; reading within a layer without links raises `ZeroDivisionError`.
* C124, C125 – `normalize_coordinates` ignores `boxSize`; so does the layout, which also moves fixed nodes, raises `KeyError` for nodes on no layer,
  `AssertionError` for fully interconnected networks with several aspects and `ZeroDivisionError` for a single node.
* C126 – in directed networks every link is drawn in both directions.
* C128 – three.js: the coordinates of nodes, but not those of the ends of edges, are multiplied by 10.
* C129 – layout "fr" with `alignedNodes=False` returns coordinates of nodes as those of node-layers; `draw` then places everything at random.
* C130 – a rule without a value (e.g. "edgetype" with "intra" only) gives `None`, not the default.
* C131 – with the rule "order" the two drawings of an undirected link get different values.
* C135 – networks coupled by a network: iterating neighbours raises `TypeError`, strengths raise `IndexError`, in every such network.
* C136 – networks without couplings (`couplings=None`): strengths raise `IndexError`.
* C137 – `independent_equations(2,…)` raises `UnboundLocalError`; `independent_equations(n,…)` with n ≥ 4 on two or more layers never returns in Python 3
  (`partitions_with_remainder` uses `xrange`).
* C139, C140 – with one node `f` is a 0×0 matrix and the product raises `ValueError`; with a coupling of another weight the
  assertions of `cc_cycle_vector_adj` fail on node-aligned networks.
* C141 – `gcc_moreno2` is `nan` if there are no possible cycles within a layer or on two layers, where `gcc_moreno2_seplayers` is a number.
* C144 – `cc_layers_avg` and `gcc_from_lcc` take `len` of a `map` or `filter` object: `TypeError` in Python 3.
* C146 – `GCM` adds a row of ones to the caller's frame; a node called `n_rows` (the last of 1, 2, ..., n) loses its counts; if one
  of the first two orbits has count 1 for all nodes the result is a single `nan`; with two orbits it is a number.
* C147 – the documented rule "name" is unknown for node sizes, "order" without a sequence raises, and the rule "f" never calls the function.
* C148 – for a fully interconnected network the keys of the result are `(node,"all")`, not its node-layers.
* C149 – an undirected network aggregated into a directed one: each edge is written in one direction, which depends on the order of the nodes.
* C150 – copying into a general network raises for some selections if layers are uncoupled, adds unknown nodes, and can raise or lose couplings if the multiplex network is not node-aligned.
* C151 – names with an apostrophe, a quotation mark or `</script>` break the page of `webplot`: names are not escaped for JavaScript or HTML.
* C153 – in Python 3 `random_nodelists` raises `NameError` (`xrange`) whatever its arguments are, as soon as there is a layer.
* C155 – networks that are `==` may have different hashes: when the same links were written in another order, or when a link was written and deleted. In Python 3 multiplex networks cannot be hashed at all (`__eq__` without `__hash__`).
* C161 – a node on no layer of a network that is not node-aligned is lost by selecting and then aggregating, but not by aggregating and then selecting.
* C164 – `del net.A[L]` and `net.A.pop(L)` leave the layer where it is, and `net.A.clear()` never ends if there is a layer, because `__delitem__` does nothing.
* C165 – `_get_link` of the flat view uses a variable that does not exist, and the view lacks the attributes that writing needs.
* C119 – `ws` documents the number of edges, but the generated layers have `n*(ceil(2m/n)//2)` edges.

## 6. What is modelled

* net.py: `MultilayerNetwork` (all mutating calls, reads, slices, iteration, degrees, strengths, registries, edges,
  equality), `MultilayerNode` access, `MultiplexNetwork` (same, with intra-layer networks as shared children).
  The coupling argument of `MultiplexNetwork`. Replacing a whole intra-layer network (`net.A[s]=other`) and the other methods of the mapping `net.A`. `ModularityMultilayerNetworkView`: construction and reading
  of links (nothing else works on it, as it has no attributes `directed` and `noEdge`). `__hash__` with pickling and the hash of byte strings as arguments. `FlatMultilayerNetworkView`: reading and writing of links, nodes and degrees. Not modelled: pickling itself, string and dictionary conversions.
* visuals: layouts.py (`get_layout`, `normalize_coordinates`, the Fruchterman-Reingold layout with and without aligned nodes, for general networks), the figure
  that `draw` builds (for general and multiplex networks), `NetFigure.normalize_coords` and the order of its layers, drawassigners.py (without
  colormaps and "sourcedestweight"), the coordinates of the backend three.js. Coordinates are exact. webplots.py: `webplot`, for names that are integers or strings and integer weights. Not modelled: matplotlib.
* transforms.py: `aggregate`, `overlay_network`, `subnet`, `relabel` (of general and of multiplex networks),
  `normalize`, `threshold` (except multiplex networks without couplings), `subnet_iter`, `randomize_nodes_by_layer`, `get_underlying_graph`; net.py
  `get_supra_adjacency_matrix`. A `newNet` argument given by the caller is modelled for `aggregate`, and for `subnet` if it is an empty general network. Sorting uses a linear order on names; the integers
  used as names by `normalize` are given by an injective embedding.
* diagnostics.py: `degs`, `density`, `dijkstra`, for general and multiplex networks. `density` uses rational instead of
  floating-point division. The heap of `dijkstra` is a bag with an arbitrary `pop` that returns an entry of least
  distance; comparing node names when distances tie (a `TypeError` in Python if the names are not comparable) is not
  modelled. `multiplex_density`, `multiplex_degs`, `overlap_degs` (up to its first call, which raises),
  `dijkstra_mlayer_prune` for networks with an aspect (without one, the helper `select_aspects` would take the letters of
  a node name as coordinates); `None` in an aspect that is kept is a name no node or layer has.
* isomorphisms: `AuxiliaryGraphBuilder` (graph construction, comparison, mappings, generators, invariants) and
  `is_isomorphic`, `get_isomorphism`, `get_automorphism_generators`, `get_complete_invariant`. The graph libraries
  (networkx, PyBliss) are parameters; what is assumed of them is in Spec/Isom (`FindsIso`, `FindsGens`, `Canonical`), and
  these assumptions are shown satisfiable. Names are linearly ordered (the code asserts that they can be sorted). Links are
  compared by existence, as in the code: weights are ignored. Elementary layers of an aspect that must not change and
  that carry no node-layer are ignored. The backend choice by name is in `Model/Backends.lean`; that imports may fail is the set of backends.
* sampling: reqs.py (`default_check_reqs`, `default_calculate_required_lengths`, `relaxed_check_reqs`), dumb.py and esu.py,
  for one-aspect general networks, with a list as results container. `networkx.is_connected` is a parameter assumed to be
  correct for the underlying monoplex graph (`Spec.TestsConnected`), `str` of a node-layer is an injective parameter, the
  random numbers of the sampler (one for each place in its search tree, so no two draws are identified) and the choice of
  `set.pop` are arbitrary functions; `None` is not a name. The warnings and assertions about the
  type of arguments are not modelled.
* cc.py: `cc_aw_vector`, `cc_layers_avg`, `gcc_from_lcc` (`Model/ClusterAvg.lean`), the versions with matrices (`Model/CycleAdj.lean`; entries are elements of a field, no rounding), `lcc`, `cc_zhang`, `gcc_zhang`, `cc_barrat`, the three `cc_barrett` functions, `cc_sequence`, `cc_layers_wavg`,
  `gcc_super_graph`, `gcc_super_graph_no_couplings`, the six `gcc_contraction` functions, `lcc_brodka` (undirected),
  `lcc_battiston1`, `lcc_battiston2`, `lcc_criado`, `elementary_cycles`, `lcc_aw`, `avg_lcc_aw` (without the vector),
  `cc_onnela`, `sncc_aw`, `sncc_aw_layercost`, `sncc_aw_seplayers`, `gcc_aw`, `gcc_moreno2_seplayers`. Numbers are exact (an ordered field) instead of floating-point.
  `elementary_cycles` nests lazy `map` objects; that their evaluation may
  exhaust the stack on very large networks is outside the model.
* graphlets/graphlets.py: `graphlets` (the keys are `str` of complete invariants: any injective function; canonical forms are
  assumed to decide isomorphism, `Spec.Canonical`; node names 0, 1, ... by an injective function; layers can be sorted),
  `automorphism_orbits`, `automorphism_orbits_nl` (one network at a time: the keys of the networks
  are disjoint), `list_orbits`, `layer_combinations`, `partitions`, `partitions_with_remainder`. Generators are lists. `coefficient`, `coefficient_help`,
  `orbit_name`, `subtrahend`, `orbit_equations`, `combine_orbits`, `merge_nodes`, `add_possible_edges`.
* graphlets/independent_equations.py: `SCCs`, `reverse`, `explore`, `DFS`, `independents_and_dependents`, `all_inds_and_deps`,
  `definitely_independent`, `redundant_orbits`. `eq_network`, `find_equations`, the versions for layers and
  `independent_equations` are in `Model/IndepEqs.lean`; in `orbit_equations` keys of other forms than two orbits are not told apart.
* graphlets/graphlet_measures.py: `touching_orbit_nodes`, `orbit_counts`, `orbit_counts_all`, `orbit_numbers`,
  `ordered_orbit_list`, `GCD`, `GCD_matrix`, `GCM` (`Model/Gcm.lean`; what it uses of pandas, numpy and scipy is modelled by the
  documented results in exact numbers, without the probabilities of `spearmanr`).
* nxwrap.py: the decorator (`networkxdecorator`, `autowrap`), around an arbitrary function; reading and writing the
  adjacency mappings of the view (28-132). Not modelled: writing to the node mapping (it does nothing), keys that cannot be hashed.
* netio.py: `write_json` (the data; its text for names that are integers or strings and integer weights), `read_edge_files`, `write_edge_files`, `read_ucinet` (with `networktype` "monoplex" by the
  number of levels, as in the code). The file system is an argument (lines) and a result (dictionary from names to texts); white space and
  lower case are those of ASCII; `int`, `float` and `str` are parameters.
* models.py: `single_layer_er`, `er`, `er_partially_interconnected`, `full`, `full_multilayer`, `er_multilayer`,
  `ba_total_degree`, `er_overlaps_match_aggregated`. Random outcomes are arguments of the model and are checked by it
  (samples without repetition, random numbers in [0,1)), so no theorem assumes anything of them. `math.log`, `math.sqrt`
  and division are exact. The configuration models `single_layer_conf`, `conf`, `conf_overlaps` (stubs in pairs; names are
  linearly ordered). `ws` and `geo` for one coupling, with networkx's generators as arguments.
* sampling/creators.py: `er_multilayer_partially_interconnected`, `random_nodelists` (both without the seed).
