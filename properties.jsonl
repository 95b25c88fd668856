{"id": "C01", "title": "Lattice incidence is well formed", "statement": "After Lattice(L), every site lists exactly four connecting bonds, every bond lists exactly two connected sites, all listed ids are in range, and a site appears in a bond's list exactly when the bond appears in the site's list; so scan_sites() and scan_bonds() never fail. For L>=2 the four bonds of a site and the two sites of a bond are distinct (test_neighbor_count passes); for L=1 they are not.", "quantifier": "every lattice length L >= 1, every site id, every bond id", "why_tests_cant": "the tests build six lengths; the property is about modular arithmetic for every length", "anchors": ["source_py/simulation/lattice.py:Lattice.init_lattice", "source_py/simulation/lattice.py:Lattice.init_ids", "source_py/simulation/lattice.py:Lattice.find_neighbor_bonds", "source_py/simulation/lattice.py:Lattice.scan_sites", "source_py/simulation/lattice.py:Lattice.scan_bonds", "source_py/simulation/lattice.py:Lattice.test_neighbor_count"]}
{"id": "C02", "title": "Ids and indices are inverse encodings", "statement": "calculate_id_from_index applied to a site's (row, col) or a bond's (type, row, col) gives back that object's id; the encoding is injective on in-range indices; get_row_col_from_id inverts get_id_from_index.", "quantifier": "every L >= 1 and every in-range site/bond index or id", "why_tests_cant": "infinitely many lengths; a base-L positional encoding round trip", "anchors": ["source_py/simulation/lattice.py:Lattice.calculate_id_from_index", "source_py/simulation/lattice.py:Lattice.get_row_col_from_id", "source_py/simulation/lattice.py:Lattice.get_id_from_index", "source_py/simulation/lattice.py:Lattice.get_site_by_index", "source_py/simulation/lattice.py:Lattice.get_bond_by_index"]}
{"id": "C03", "title": "Neighbour queries are the four torus neighbours", "statement": "get_site_neighbor_of_site(s) and get_all_neighbor_sites(s) return, in this order, the right, down, left and up neighbour of s on the periodic L x L square lattice, never raise, and the neighbour relation is symmetric.", "quantifier": "every L >= 1, every site id", "why_tests_cant": "corner, edge and interior cases for every L", "anchors": ["source_py/simulation/lattice.py:Lattice.get_site_neighbor_of_site", "source_py/simulation/lattice.py:Lattice.get_all_neighbor_sites", "source_py/simulation/percolation_sq_lattice.py:SitePercolation.get_neighbor_site", "source_py/simulation/percolation_sq_lattice.py:SitePercolation.get_connected_sites"]}
{"id": "C04", "title": "distance_btn_sites on neighbours", "statement": "distance_btn_sites is symmetric and gives (1,0) or (0,1) for two nearest neighbours (periodic boundaries included) when L >= 2. It is not the periodic distance in general: only the full-width difference L-1 is folded.", "quantifier": "every L, every pair of sites", "why_tests_cant": "needs all pairs at all lengths; the unfolded distances (e.g. L-2) are never exercised", "anchors": ["source_py/simulation/lattice.py:Lattice.distance_btn_sites"]}
{"id": "C05", "title": "Bonds are partitioned by clusters", "statement": "After any sequence of operations every bond id lies in exactly one cluster's bond list, exactly once, and get_bond_gid_by_id of the bond is that cluster's position; the bond counts of all 2*L*L clusters always sum to 2*L*L.", "quantifier": "every L >= 1, every class (L0, L1, L2, shortest path), every random draw, every set iteration order, every operation sequence", "why_tests_cant": "histories are unbounded; merges interleave in exponentially many ways", "anchors": ["source_py/simulation/percolation_sq_lattice.py:SitePercolation.merge_clusters_v2", "source_py/simulation/cluster.py:ClusterPool.merge_cluster_with", "source_py/simulation/cluster.py:ClusterPool.clear_cluster", "source_py/simulation/percolation_sq_lattice.py:SitePercolation.init_clusters"]}
{"id": "C06", "title": "Occupied sites are partitioned by clusters", "statement": "After any sequence of operations a site is in some cluster's site list iff it is occupied; then it is in exactly one list, once, and get_site_gid_by_id is that cluster's position. An unoccupied site has gid -1.", "quantifier": "every L, class, random draw, set order, operation sequence", "why_tests_cant": "histories are unbounded", "anchors": ["source_py/simulation/percolation_sq_lattice.py:SitePercolation.merge_clusters_v2", "source_py/simulation/cluster.py:ClusterPool.merge_cluster_with", "source_py/simulation/lattice.py:Lattice.set_site_gid_by_id"]}
{"id": "C07", "title": "Same gid means connected (sites)", "statement": "Two occupied sites have the same gid iff they are joined by a path of occupied nearest neighbours on the periodic lattice.", "quantifier": "every L, class, random draw, set order, operation sequence, pair of occupied sites", "why_tests_cant": "connectivity of every configuration of every size, independent of the order of merges", "anchors": ["source_py/simulation/percolation_sq_lattice.py:SitePercolation.place_one_site", "source_py/simulation/percolation_sq_lattice.py:SitePercolation.merge_clusters_v2", "source_py/simulation/lattice.py:Lattice.get_site_gid_by_id"]}
{"id": "C08", "title": "Same gid means connected (bonds)", "statement": "Two bonds have the same gid iff they are equal or joined by a chain of bonds in which consecutive bonds meet at an occupied site; an occupied site and its four bonds share one gid.", "quantifier": "every L, class, random draw, set order, operation sequence, pair of bonds", "why_tests_cant": "as C07", "anchors": ["source_py/simulation/percolation_sq_lattice.py:SitePercolation.place_one_site", "source_py/simulation/percolation_sq_lattice.py:SitePercolation.merge_clusters_v2", "source_py/simulation/lattice.py:Lattice.get_bond_gid_by_id"]}
{"id": "C09", "title": "Placing a site only touches adjacent clusters", "statement": "A successful place_one_site changes the gid and relative index of no bond or site whose cluster is not one of the clusters adjacent to the placed site, and the surviving cluster id is one of those adjacent ids (the wrapping one if present after wrapping was detected, otherwise one of maximal bond count).", "quantifier": "every reachable state and every placement", "why_tests_cant": "frame property over all reachable states", "anchors": ["source_py/simulation/percolation_sq_lattice.py:SitePercolation.merge_clusters_v2", "source_py/simulation/percolation_sq_lattice.py:SitePercolation.relabel_relative_indices"]}
{"id": "C10", "title": "place_one_site occupies exactly one new site", "statement": "When place_one_site returns True with selection_flag SUCESS exactly one site changes from unoccupied to occupied, namely selected_id; with any other flag no site changes; no call ever un-occupies a site; it returns False iff the flag is EMPTY_SITE_LIST.", "quantifier": "every L, class, reachable state, random draw", "why_tests_cant": "all reachable states of three selection rules", "anchors": ["source_py/simulation/percolation_sq_lattice.py:SitePercolation.place_one_site", "source_py/simulation/percolation_sq_lattice.py:SitePercolation.select_site", "source_py/simulation/percolation_sq_lattice_L1L2.py:SitePercolationL1.select_site", "source_py/simulation/percolation_sq_lattice_L1L2.py:SitePercolationL2.select_site"]}
{"id": "C11", "title": "Occupation counter is exact", "statement": "occupied_site_count equals the number of sites with is_occupied() true, so occupation_prob() is that number divided by L*L.", "quantifier": "every L, class, operation sequence", "why_tests_cant": "counter/representation agreement over unbounded histories", "anchors": ["source_py/simulation/percolation_sq_lattice.py:SitePercolation.occupation_prob", "source_py/simulation/percolation_sq_lattice.py:SitePercolation.select_site", "source_py/simulation/site.py:Site.is_occupied"]}
{"id": "C12", "title": "largest_cluster is the maximum", "statement": "Once at least one site is placed since the last reset, largest_cluster() equals the maximum bond count over all clusters, and largest_cluster_id names a cluster having that bond count; before any placement it is 0.", "quantifier": "every L, class, operation sequence", "why_tests_cant": "incremental maximum against the recomputed one over unbounded histories", "anchors": ["source_py/simulation/percolation_sq_lattice.py:SitePercolation.track_largest_cluster", "source_py/simulation/percolation_sq_lattice.py:SitePercolation.largest_cluster", "source_py/simulation/percolation_sq_lattice.py:SitePercolation.order_param_largest_clstr"]}
{"id": "C13", "title": "Order parameter by largest cluster is monotone and bounded", "statement": "largest_cluster() never decreases between resets, never exceeds 2*L*L, and equals 2*L*L when every site is occupied.", "quantifier": "every L, class, operation sequence", "why_tests_cant": "unbounded histories", "anchors": ["source_py/simulation/percolation_sq_lattice.py:SitePercolation.track_largest_cluster", "source_py/simulation/percolation_sq_lattice.py:SitePercolation.order_param_largest_clstr"]}
{"id": "C14", "title": "Incremental entropy equals recomputed entropy", "statement": "entropy_v2() (incremental) equals entropy_v1() (recomputed from all clusters) in exact real arithmetic.", "quantifier": "every L, class, operation sequence", "why_tests_cant": "incremental bookkeeping over unbounded histories; tests only print both", "anchors": ["source_py/simulation/percolation_sq_lattice.py:SitePercolation.entropy_subtract", "source_py/simulation/percolation_sq_lattice.py:SitePercolation.entropy_add", "source_py/simulation/percolation_sq_lattice.py:SitePercolation.entropy_v1", "source_py/simulation/percolation_sq_lattice.py:SitePercolation.entropy_v2"]}
{"id": "C15", "title": "Entropy is the Shannon entropy of bond components, bounded and non-increasing", "statement": "In exact real arithmetic entropy() is -sum over bond clusters of mu*log(mu) with mu the fraction of bonds in the cluster (clusters in the sense of connectivity), lies in [0, log(2*L*L)], never increases when a site is placed, and is 0 when all sites are occupied.", "quantifier": "every L, class, operation sequence", "why_tests_cant": "real-analytic inequality over all reachable partitions", "anchors": ["source_py/simulation/percolation_sq_lattice.py:SitePercolation.entropy", "source_py/simulation/percolation_sq_lattice.py:SitePercolation.entropy_subtract", "source_py/simulation/percolation_sq_lattice.py:SitePercolation.entropy_add"]}
{"id": "C16", "title": "detect_wrapping is sound", "statement": "For L >= 3, if detect_wrapping() returns True then the occupied sites contain a closed nearest-neighbour walk whose unwrapped displacement is non-zero (a cluster really wraps around the torus), even if detect_wrapping was not called after every placement.", "quantifier": "every L >= 3, class, operation sequence", "why_tests_cant": "topological property of every configuration and every merge history", "anchors": ["source_py/simulation/percolation_sq_lattice.py:SitePercolation.detect_wrapping", "source_py/simulation/percolation_sq_lattice.py:SitePercolation.relabel_relative_indices", "source_py/simulation/percolation_sq_lattice.py:Percolation.get_relative_index", "source_py/simulation/percolation_sq_lattice.py:Percolation.wrapping_correction_relative_index"]}
{"id": "C17", "title": "detect_wrapping is complete when called after every placement", "statement": "For L >= 3, if detect_wrapping() is called after each successful placement (as run_once does), it returns True exactly when the occupied sites contain a closed nearest-neighbour walk with non-zero unwrapped displacement.", "quantifier": "every L >= 3, class, placement sequence", "why_tests_cant": "as C16: equivalence with a topological specification for all configurations", "anchors": ["source_py/simulation/percolation_sq_lattice.py:SitePercolation.detect_wrapping", "source_py/simulation/percolation_sq_lattice.py:SitePercolation.run_once", "source_py/simulation/percolation_sq_lattice.py:SitePercolation.merge_clusters_v2"]}
{"id": "C18", "title": "No wrapping is ever reported on lattices of length 1 or 2", "statement": "For L <= 2 detect_wrapping() never returns True, even on the fully occupied lattice, whose rows do wrap: get_pc() stays 0 and order_param_wrapping() stays 0.", "quantifier": "L in {1,2}, every class, operation sequence", "why_tests_cant": "negative fact about every history; no test uses L <= 2", "anchors": ["source_py/simulation/percolation_sq_lattice.py:SitePercolation.detect_wrapping", "source_py/simulation/percolation_sq_lattice.py:Percolation.wrapping_correction_relative_index", "source_py/simulation/percolation_sq_lattice.py:SitePercolation.get_pc"]}
{"id": "C19", "title": "Wrapping detection is sticky and critical data are frozen", "statement": "Once detect_wrapping() has returned True, until reset it keeps returning True and get_pc(), get_site_count_wrapping_cluster_pc() and get_bond_count_wrapping_cluster_pc() keep their values whatever is placed.", "quantifier": "every L, class, operation sequence without reset", "why_tests_cant": "unbounded histories", "anchors": ["source_py/simulation/percolation_sq_lattice.py:SitePercolation.detect_wrapping", "source_py/simulation/percolation_sq_lattice.py:SitePercolation.get_pc", "source_py/simulation/percolation_sq_lattice.py:SitePercolation.get_site_count_wrapping_cluster_pc", "source_py/simulation/percolation_sq_lattice.py:SitePercolation.get_bond_count_wrapping_cluster_pc"]}
{"id": "C20", "title": "The wrapping cluster id stays valid", "statement": "After wrapping was detected, wrapping_cluster_id always names the (non-empty) cluster that contains the wrapping loop, through any later merges; order_param_wrapping() is its bond fraction and never decreases until reset.", "quantifier": "every L >= 3, class, operation sequence", "why_tests_cant": "merges can clear clusters; must hold for all merge orders", "anchors": ["source_py/simulation/percolation_sq_lattice.py:SitePercolation.merge_clusters_v2", "source_py/simulation/percolation_sq_lattice.py:SitePercolation.order_param_wrapping"]}
{"id": "C21", "title": "Critical data are those of the first wrapping configuration", "statement": "In a run with detection after each placement (L >= 3), get_pc() is (number of sites placed when the configuration first wraps)/L^2, and the two wrapping-cluster counts are the number of occupied sites and of bonds in the connected cluster of the site whose placement closed the loop.", "quantifier": "every L >= 3, class, placement sequence", "why_tests_cant": "exact characterisation for all sequences", "anchors": ["source_py/simulation/percolation_sq_lattice.py:SitePercolation.detect_wrapping", "source_py/simulation/percolation_sq_lattice.py:SitePercolation.get_pc", "source_py/simulation/percolation_sq_lattice.py:SitePercolation.run_once"]}
{"id": "C22", "title": "Skipping detect_wrapping can miss the wrap", "statement": "If detect_wrapping() is not called right after the placement that closes the loop, a later call can return False although the configuration wraps (only the last placed site is inspected).", "quantifier": "existence of a history for every L >= 3 large enough", "why_tests_cant": "a claim about all later calls of a history", "anchors": ["source_py/simulation/percolation_sq_lattice.py:SitePercolation.detect_wrapping"]}
{"id": "C23", "title": "detect_wrapping before the first placement", "statement": "On a freshly constructed object detect_wrapping() raises (selected_id is None); right after reset() of an object that has placed a site it returns False and changes nothing.", "quantifier": "every L >= 1, class, every history before the reset", "why_tests_cant": "all histories before the reset", "anchors": ["source_py/simulation/percolation_sq_lattice.py:SitePercolation.detect_wrapping", "source_py/simulation/percolation_sq_lattice.py:SitePercolation.reset", "source_py/simulation/lattice.py:Lattice.get_sites_for_wrapping_test"]}
{"id": "C24", "title": "An L0 run occupies every site exactly once in the shuffled order", "statement": "On a fresh or reset SitePercolationL0, place_one_site returns True exactly L^2 times and then False forever; the k-th call occupies the k-th entry of get_site_id_sequence(); run_once ends with every site occupied and never raises.", "quantifier": "every L >= 1, every shuffle outcome", "why_tests_cant": "all permutations of all lengths; termination", "anchors": ["source_py/simulation/percolation_sq_lattice.py:SitePercolation.select_site", "source_py/simulation/percolation_sq_lattice.py:SitePercolation.run_once", "source_py/simulation/percolation_sq_lattice.py:SitePercolation.shuffle"]}
{"id": "C25", "title": "The data array of a run has L^2 rows of equal-length columns with p_k = k/L^2", "statement": "After reset(); run_once() in the default mode of L0, L1 or L2, the four columns of get_data_array have L^2 entries each and the k-th occupation probability is k/L^2 (k = 1..L^2).", "quantifier": "every L >= 1, class in {L0,L1,L2}, random draw", "why_tests_cant": "all run lengths and random choices", "anchors": ["source_py/simulation/percolation_sq_lattice.py:SitePercolation.run_once", "source_py/simulation/percolation_sq_lattice.py:SitePercolation.get_data_array", "source_py/simulation/percolation_sq_lattice.py:SitePercolation.get_occupation_prob_array"]}
{"id": "C26", "title": "The fully occupied lattice is one wrapping cluster", "statement": "For L >= 3, at the end of a run with detection after every placement all sites and bonds are in the single cluster wrapping_cluster_id, order_param_wrapping() and order_param_largest_clstr() are both 2L^2/2L^2, and test_clusters() and test_lattice() do not raise. For L <= 2 test_lattice() raises at the end of the run.", "quantifier": "every L, class, random draw", "why_tests_cant": "all permutations of all lengths", "anchors": ["source_py/simulation/percolation_sq_lattice.py:SitePercolation.test_clusters", "source_py/simulation/percolation_sq_lattice.py:SitePercolation.test_lattice", "source_py/simulation/lattice.py:Lattice.test_lattice", "source_py/simulation/percolation_sq_lattice.py:SitePercolation.order_param_wrapping"]}
{"id": "C27", "title": "Observables depend only on the placement sequence", "statement": "Two runs (possibly of different classes, with different set iteration orders) that place the same sites in the same order with detection after each placement report the same occupation probabilities, entropies (exact arithmetic), both order parameters, get_pc() and wrapping cluster counts at every step.", "quantifier": "every L >= 3, every pair of runs with equal placement sequences", "why_tests_cant": "relational property over pairs of unbounded runs and over the unspecified set iteration order", "anchors": ["source_py/simulation/percolation_sq_lattice.py:SitePercolation.run_once", "source_py/simulation/percolation_sq_lattice.py:SitePercolation.merge_clusters_v2", "source_py/simulation/percolation_sq_lattice.py:Percolation.get_bond_gids"]}
{"id": "C28", "title": "reset restores the initial state", "statement": "After reset() every site and bond is as after construction (unoccupied, relative index (0,0), neighbour counters 4, original connectivity), every bond is its own cluster, counters, entropy, wrapping and critical data have their initial values, so the next run behaves as on a new object with the same site order.", "quantifier": "every L, class, operation sequence before the reset", "why_tests_cant": "state leakage across unbounded histories", "anchors": ["source_py/simulation/percolation_sq_lattice.py:SitePercolation.reset", "source_py/simulation/percolation_sq_lattice.py:Percolation.reset", "source_py/simulation/lattice.py:Lattice.reset", "source_py/simulation/cluster.py:ClusterPool.reset", "source_py/simulation/percolation_sq_lattice_L1L2.py:SitePercolationL1.reset", "source_py/simulation/percolation_sq_lattice_L1L2.py:SitePercolationL2.reset", "source_py/simulation/percolation_sq_lattice_shortest_path.py:ShortestPathAfter_pc.reset"]}
{"id": "C29", "title": "Repeated reset/run_once keeps get_data_array well formed", "statement": "For any number of repetitions of reset(); run_once() on one object in the default mode of L0, L1 or L2, get_data_array never raises after each repetition; but if the very first run is started after some sites were already placed, the next reset/run_once makes it raise.", "quantifier": "every L, class, number of repetitions, random draws", "why_tests_cant": "unbounded repetition; first_run is never re-armed", "anchors": ["source_py/simulation/percolation_sq_lattice.py:SitePercolation.run_once", "source_py/simulation/percolation_sq_lattice.py:SitePercolation.reset", "source_py/simulation/percolation_sq_lattice.py:SitePercolation.get_data_array", "run_py/ensemble.py:run_ensemble_entropy_order"]}
{"id": "C30", "title": "set_custome_site_id_list validates and runs the given ids", "statement": "set_custome_site_id_list raises on an empty list, and leaves the object unchanged if some id is out of range (iff, on an object without a custom list); otherwise on a fresh L0 object with do_shuffle False the following placements occupy exactly the given ids in the given order, up to the first repeated id, where place_one_site raises AssertionError.", "quantifier": "every L, every integer list", "why_tests_cant": "all lists of all lengths", "anchors": ["source_py/simulation/percolation_sq_lattice.py:SitePercolation.set_custome_site_id_list", "source_py/simulation/percolation_sq_lattice.py:SitePercolation.select_site"]}
{"id": "C31", "title": "set_custome_site_index_list", "statement": "set_custome_site_index_list behaves as set_custome_site_id_list on the encoded ids; every list of in-range (row, col) pairs is accepted. Out-of-range pairs are rejected only if their encoding leaves [0, L^2): e.g. (0, L) is accepted and means site (1, 0).", "quantifier": "every L, every list of index pairs", "why_tests_cant": "all lists", "anchors": ["source_py/simulation/percolation_sq_lattice.py:SitePercolation.set_custome_site_index_list", "source_py/simulation/lattice.py:Lattice.calculate_id_from_index"]}
{"id": "C32", "title": "Shuffling permutes and keeps the reverse index", "statement": "Construction, reset and shuffle leave get_site_id_sequence() a permutation of its previous content (of 0..L^2-1 for a new object) with reverse_ids_indices its inverse; every permutation is possible; swap_ids exchanges the two ids' positions and keeps both facts. (For L1 and L2 the reverse index is stale after reset.)", "quantifier": "every L, every random draw, every pair of ids", "why_tests_cant": "all permutations", "anchors": ["source_py/simulation/percolation_sq_lattice.py:SitePercolation.shuffle", "source_py/simulation/percolation_sq_lattice.py:SitePercolation.swap_ids", "source_py/simulation/percolation_sq_lattice.py:SitePercolation.get_site_id_sequence"]}
{"id": "C33", "title": "L1 never selects an occupied site", "statement": "In the default mode of SitePercolationL1 place_one_site never raises (in particular its 'must be unoccupied' assertion cannot fail), and unoccupied sites are never dropped from the pool of candidates.", "quantifier": "every L >= 1, every random draw, every number of calls and resets", "why_tests_cant": "all random draw sequences", "anchors": ["source_py/simulation/percolation_sq_lattice_L1L2.py:SitePercolationL1.select_site", "source_py/simulation/site.py:Site.reduce_1st_nn", "source_py/simulation/site.py:Site.is_removable"]}
{"id": "C34", "title": "L1 terminates after exactly 5*L^2 calls", "statement": "On a fresh or reset SitePercolationL1 (default mode) place_one_site returns True exactly 5*L^2 times, whatever the random draws, and then False with every site occupied; exactly L^2 of these calls place a site.", "quantifier": "every L >= 1, every random draw sequence", "why_tests_cant": "termination for every random sequence", "anchors": ["source_py/simulation/percolation_sq_lattice_L1L2.py:SitePercolationL1.select_site", "source_py/simulation/percolation_sq_lattice.py:SitePercolation.run_once"]}
{"id": "C35", "title": "L2 never selects an occupied site and terminates after exactly 5*L^2 calls", "statement": "In the default mode of SitePercolationL2 place_one_site never raises, returns True exactly 5*L^2 times and then False with every site occupied.", "quantifier": "every L >= 1, every random draw sequence", "why_tests_cant": "termination and safety for every random sequence", "anchors": ["source_py/simulation/percolation_sq_lattice_L1L2.py:SitePercolationL2.select_site", "source_py/simulation/site.py:Site.reduce_2st_directional_nn"]}
{"id": "C36", "title": "L1 selection rule", "statement": "A successful L1 selection picks either the drawn candidate (if it is empty) or, if the drawn candidate is occupied, one of its four nearest neighbours; x_occupied counts exactly the draws that hit an occupied site.", "quantifier": "every reachable state, every draw", "why_tests_cant": "all states and draws", "anchors": ["source_py/simulation/percolation_sq_lattice_L1L2.py:SitePercolationL1.select_site", "source_py/simulation/percolation_sq_lattice_L1L2.py:SitePercolationL1.occupied_summary"]}
{"id": "C37", "title": "L2 looks straight ahead", "statement": "When the drawn site X and its drawn neighbour Y are both occupied, L2 considers the site Z one step beyond Y in the direction from X to Y. This holds when the step X->Y does not cross the periodic boundary; when it does cross it (L >= 2), Z is X itself, so the claim fails there.", "quantifier": "every L >= 3, every occupied X, every direction", "why_tests_cant": "boundary cases for every L", "anchors": ["source_py/simulation/percolation_sq_lattice_L1L2.py:SitePercolationL2.select_site", "source_py/simulation/percolation_sq_lattice_L1L2.py:SitePercolationL2.correct_index_for_periodicity", "source_py/simulation/index.py:Index.normalize"]}
{"id": "C38", "title": "The recorded L1 sequence replays in L0", "statement": "get_index_sequence() of SitePercolationL1 lists the placed sites in placement order without repetition; feeding it to set_custome_site_index_list of a new L0 object and running it places the same sites in the same order and reports the same observables.", "quantifier": "every L >= 1, every L1 run", "why_tests_cant": "relational over all runs", "anchors": ["source_py/simulation/percolation_sq_lattice_L1L2.py:SitePercolationL1.get_index_sequence", "source_py/simulation/percolation_sq_lattice.py:SitePercolation.set_custome_site_index_list"]}
{"id": "C39", "title": "Shortest path point is sound", "statement": "If ShortestPathAfter_pc.run_once stops before the sites are exhausted, then all sites of the row or of the column of the last placed site belong to the wrapping cluster, scan_all_cols() or scan_all_rows() is True, get_shortest_path_p() is the current occupation probability and get_pc() <= get_shortest_path_p().", "quantifier": "every L, every site order, custom or not", "why_tests_cant": "all orders", "anchors": ["source_py/simulation/percolation_sq_lattice_shortest_path.py:ShortestPathAfter_pc.run_once", "source_py/simulation/percolation_sq_lattice_shortest_path.py:ShortestPathAfter_pc.scan_row_col_of_selected_site", "source_py/simulation/percolation_sq_lattice_shortest_path.py:ShortestPathAfter_pc.scan_all_rows", "source_py/simulation/percolation_sq_lattice_shortest_path.py:ShortestPathAfter_pc.scan_all_cols"]}
{"id": "C40", "title": "Where the shortest path run stops", "statement": "ShortestPathAfter_pc.run_once stops at the first occupation after which the complete row or the complete column of the site just placed belongs to the wrapping cluster, so never before the wrapping cluster contains a complete straight row or column. It is not always the first occupation for which the wrapping cluster contains such a line (what the file header promises): a complete row of another cluster that is merged into the wrapping cluster by a site outside that row is missed. The rule and the promise agree for all site orders exactly for L <= 4; for every L >= 5 there are orders, also among the shuffles of the default mode, for which the run stops too late or not at all.", "quantifier": "every L, every site order", "why_tests_cant": "needs all orders; the counterexample needs a second cluster merging after wrapping", "anchors": ["source_py/simulation/percolation_sq_lattice_shortest_path.py:ShortestPathAfter_pc.run_once", "source_py/simulation/percolation_sq_lattice_shortest_path.py:ShortestPathAfter_pc.scan_row_col_of_selected_site"]}
{"id": "C41", "title": "Shortest path run always finds a path on the full lattice", "statement": "For L >= 3 in the default mode run_once always stops with a shortest path found and 0 < get_pc() <= get_shortest_path_p() <= 1; for L <= 2 it never finds one and get_shortest_path_p() is 0.", "quantifier": "every L >= 1, every shuffle", "why_tests_cant": "all orders", "anchors": ["source_py/simulation/percolation_sq_lattice_shortest_path.py:ShortestPathAfter_pc.run_once", "source_py/simulation/percolation_sq_lattice_shortest_path.py:ShortestPathAfter_pc.get_shortest_path_p"]}
{"id": "C42", "title": "Ensemble average and realisation count", "statement": "run_ensemble_entropy_order(cls, L, E) with E >= 1 writes the entrywise mean of the E data arrays and E rows of critical values; with E = 0 it raises. run_simulation_threads_v4(L, En, T) performs T*(En//T) realisations: En exactly iff T divides En, never more.", "quantifier": "every class, L, E, En, T >= 1, random draws", "why_tests_cant": "arithmetic for all sizes", "anchors": ["run_py/ensemble.py:run_ensemble_entropy_order", "run_py/ensemble.py:run_ensemble_entropy_order_threads_v2", "run_py/rsbd_percolatioin_run.py:run_simulation_threads_v4", "run_py/shortest_path_run.py:run_simulation_shortest_path_threads"]}
{"id": "C43", "title": "Column descriptions match the data", "statement": "The header written by run_ensemble_entropy_order_threads describes each column of the data correctly. The header written by run_ensemble_entropy_order and _threads_v2 does not: it describes P1 as the wrapping and P2 as the largest cluster order parameter, but get_data_array puts largest before wrapping.", "quantifier": "every run", "why_tests_cant": "the numbers differ only before/around wrapping, so value tests cannot settle the labelling", "anchors": ["run_py/ensemble.py:write_entropy_order", "run_py/ensemble.py:run_ensemble_entropy_order_threads", "source_py/simulation/percolation_sq_lattice.py:SitePercolation.get_data_array"]}
{"id": "C44", "title": "find_intersection returns the crossing", "statement": "For two equally long curves whose difference changes strict sign at exactly one consecutive pair (and is non-zero elsewhere) find_intersection returns that position; in general it returns the first position of maximal sign change; with no sign change it returns 0; on fewer than two points it raises.", "quantifier": "all pairs of equally long sequences over a linear order", "why_tests_cant": "all sequences", "anchors": ["source_py/analyze/lines.py:find_intersection"]}
{"id": "C45", "title": "Index arithmetic", "statement": "Index addition and subtraction are componentwise and inverse to each other; normalize turns an axis-parallel non-zero index into the unit vector of the same direction and leaves every other index unchanged; it is idempotent.", "quantifier": "all integer pairs", "why_tests_cant": "unbounded integers", "anchors": ["source_py/simulation/index.py:Index.__add__", "source_py/simulation/index.py:Index.__sub__", "source_py/simulation/index.py:Index.normalize", "source_py/simulation/index.py:RelativeIndex.__sub__"]}
{"id": "C46", "title": "get_four_neighbor_sites fails on the right column", "statement": "SitePercolationL1.get_four_neighbor_sites returns the four neighbours for interior sites, but for every L >= 3 it raises AssertionError on every site of the last column outside the first and last row (it removes from the list while iterating).", "quantifier": "every L >= 3, every site", "why_tests_cant": "all positions and lengths", "anchors": ["source_py/simulation/percolation_sq_lattice_L1L2.py:SitePercolationL1.get_four_neighbor_sites"]}
{"id": "C47", "title": "Relative-index self check never fails", "statement": "Lattice.test_relative_index() never raises, in any reachable state: for L >= 2 every occupied site having an occupied neighbour has one whose relative index differs by one unit step in some component (and for L = 1 the check is trivially met).", "quantifier": "every L >= 1, class, operation sequence", "why_tests_cant": "unbounded histories including after wrapping", "anchors": ["source_py/simulation/lattice.py:Lattice.test_relative_index", "source_py/simulation/percolation_sq_lattice.py:SitePercolation.relabel_relative_indices"]}
{"id": "C48", "title": "test_run_once assertion can fail", "statement": "test_run_once asserts that strictly more sites are occupied at pc than belong to the wrapping cluster; for every L >= 3 there is a site order (one complete row first) for which it raises AssertionError.", "quantifier": "every L >= 3", "why_tests_cant": "existence for every length", "anchors": ["source_py/simulation/percolation_sq_lattice.py:SitePercolation.test_run_once"]}
{"id": "C49", "title": "print_duration decomposes the time", "statement": "print_duration(t) decomposes t into h, m, s with 3600*h + 60*m + s = t, 0 <= m < 60, 0 <= s < 60 for t >= 0. The printed line shows the hours, the minutes and the seconds with four digits after the point; read back, they differ from t by at most half a unit of the last digit, and the seconds are below 60 except that 60.0000 is printed just below a full minute.", "quantifier": "all non-negative t", "why_tests_cant": "all values", "anchors": ["main.py:print_duration"]}
{"id": "C50", "title": "merge_clusters (first version) breaks the partition", "statement": "SitePercolation.merge_clusters, unlike merge_clusters_v2, does not clear the merged clusters: whenever it merges at least two clusters the merged bonds are listed in two clusters and the bond counts sum to more than 2*L*L.", "quantifier": "every reachable state and every bond list touching at least two clusters", "why_tests_cant": "all reachable states", "anchors": ["source_py/simulation/percolation_sq_lattice.py:SitePercolation.merge_clusters", "source_py/simulation/cluster.py:ClusterPool.merge_cluster_with"]}
{"id": "C51", "title": "ClusterPool.view counts the components", "statement": "The number of clusters reported by ClusterPool.view() is the number of connected components of bonds; it is 2*L*L initially, decreases by (number of distinct adjacent clusters - 1) per placement, and is 1 when every site is occupied.", "quantifier": "every L, class, operation sequence", "why_tests_cant": "unbounded histories", "anchors": ["source_py/simulation/cluster.py:ClusterPool.view", "source_py/simulation/cluster.py:OneCluster.view", "source_py/simulation/cluster.py:OneCluster.is_empty"]}
{"id": "C52", "title": "Order parameters are ordered", "statement": "At any time the wrapping cluster's bond count is at most largest_cluster(), which is at most 2*L*L; so 0 <= order_param_wrapping() <= order_param_largest_clstr() <= 1.", "quantifier": "every L, class, operation sequence", "why_tests_cant": "unbounded histories", "anchors": ["source_py/simulation/percolation_sq_lattice.py:SitePercolation.order_param_wrapping", "source_py/simulation/percolation_sq_lattice.py:SitePercolation.order_param_largest_clstr"]}
{"id": "C53", "title": "Relative indices are consistent lifts", "statement": "For L >= 3, for two sites of one cluster the difference of their relative indices is congruent modulo L to the difference of their (row, col) indices, and is the displacement of some walk through occupied sites between them.", "quantifier": "every L >= 3, class, operation sequence, pair of sites in one cluster", "why_tests_cant": "all merge histories", "anchors": ["source_py/simulation/percolation_sq_lattice.py:Percolation.get_relative_index", "source_py/simulation/percolation_sq_lattice.py:SitePercolation.relabel_relative_indices", "source_py/simulation/percolation_sq_lattice.py:Percolation.wrapping_correction_relative_index"]}
{"id": "C54", "title": "The critical values are geometrically possible", "statement": "Once wrapping was detected, at that moment the wrapping cluster had n >= L sites, at most as many as were occupied, and between 2n and 3n+1 bonds; 1/L <= get_pc() <= occupation_prob(). The wrapping cluster has a site in every row or a site in every column. With detection after every placement and L >= 3, wrapping has been detected at the latest with site number L*L-L+1, so get_pc() <= 1-(L-1)/L^2 and a lattice with fewer than L empty sites always reports wrapping.", "quantifier": "every L, class, operation sequence; the upper bounds for every history with detection after every placement", "why_tests_cant": "a bound over all occupation orders of every lattice size", "anchors": ["source_py/simulation/percolation_sq_lattice.py:SitePercolation.get_pc", "source_py/simulation/percolation_sq_lattice.py:SitePercolation.detect_wrapping", "source_py/simulation/percolation_sq_lattice.py:SitePercolation.get_site_count_wrapping_cluster_pc", "source_py/simulation/percolation_sq_lattice.py:SitePercolation.get_bond_count_wrapping_cluster_pc"]}
{"id": "C55", "title": "Site and bond counts of a cluster determine each other up to internal bonds", "statement": "At any time a cluster with n sites has at least 2n and at most 3n+1 bonds. For L >= 2 a cluster with n >= 1 sites has exactly 4n - e bonds, where e is the number of its bonds with both ends occupied.", "quantifier": "every L, class, operation sequence, cluster id in 0..2*L*L-1", "why_tests_cant": "all merge histories", "anchors": ["source_py/simulation/cluster.py:ClusterPool.get_cluster_bond_count", "source_py/simulation/cluster.py:ClusterPool.get_cluster_site_count", "source_py/simulation/percolation_sq_lattice.py:SitePercolation.merge_clusters_v2"]}
{"id": "C56", "title": "Merging relabels each bond at most logarithmically often", "statement": "Between two resets the cluster id of a bond changes after at most log2(2*L*L)+1 calls, whatever calls are made (including the extra relabelling into the wrapping cluster); so all bonds together are relabelled at most 2*L*L*(log2(2*L*L)+1) times per run. The id of a site changes at most log2(2*L*L)+2 times, its occupation included.", "quantifier": "every L, class, operation sequence without reset, bond, site", "why_tests_cant": "a worst-case bound over all orders of occupation; tests see single runs", "anchors": ["source_py/simulation/percolation_sq_lattice.py:SitePercolation.merge_clusters_v2", "source_py/simulation/cluster.py:ClusterPool.merge_cluster_with", "source_py/simulation/lattice.py:SqLattice.set_bond_gid_by_id"]}
{"id": "C57", "title": "Every order and every configuration is equally likely", "statement": "In the L0 and shortest-path classes the constructor, and reset() with shuffling on, give every order of the site ids for exactly one vector of the random numbers drawn by random.shuffle (one number 0 <= j <= i per position i). Hence, if these numbers are independent and uniform, every order is equally likely, run_once occupies the sites in a uniformly random order, and after any number of placements all sets of occupied sites of the same size are equally likely; every set is possible.", "quantifier": "every L >= 1, every permutation, every number of placements, every pair of equally large sets of sites; reset after any history", "why_tests_cant": "sampling can only estimate frequencies; (L*L)! orders", "anchors": ["source_py/simulation/percolation_sq_lattice.py:SitePercolation.shuffle", "source_py/simulation/percolation_sq_lattice.py:SitePercolation.__init__", "source_py/simulation/percolation_sq_lattice.py:SitePercolation.reset", "source_py/simulation/percolation_sq_lattice.py:SitePercolation.select_site"]}
{"id": "C58", "title": "Shape of the averaged table", "statement": "The table written by run_ensemble_entropy_order and run_ensemble_entropy_order_threads_v2 has exactly L*L rows (p, H, P_largest, P_wrapping) with p = k/(L*L). Averaging keeps the shape of single runs: H lies in [0, log(2*L*L)], never increases from row to row and is 0 in the last row; 0 <= P_wrapping <= P_largest <= 1, both columns never decrease, P_largest ends at 1; P_wrapping is 0 in the first L-1 rows, and for L >= 3 is at least 1/L in the last L + floor((L-1)/2) rows and 1 in the last row (for L <= 2 it is 0 throughout). For L >= 2 the first row is the same for all random numbers.", "quantifier": "every L >= 1, class L0/L1/L2, number of realisations >= 1, all random numbers, with and without the parallel driver, every row", "why_tests_cant": "the table depends on all random numbers of all realisations; a test sees one table", "anchors": ["run_py/ensemble.py:run_ensemble_entropy_order", "run_py/ensemble.py:run_ensemble_entropy_order_threads_v2", "source_py/simulation/percolation_sq_lattice.py:SitePercolation.get_data_array"]}
{"id": "C59", "title": "Cross-check files can be replayed exactly for L0, by index for L1, not for L2", "statement": "single_realization(SitePercolationL0, L) records every site once (ids and indices in the placement order), lists with one entry per site, and test_data_json's replay (a new L0 object given the index sequence, run_once) reproduces pc, the site and bond counts and the three lists exactly, in any (also rounded) arithmetic. For L1 the index sequence is the placement order and the replay agrees (entropies in exact arithmetic), but the recorded id sequence is the left-over candidate pool. For L2 both sequences are the left-over pool: either the sites row by row or a list with a repeated site, in which case the replay raises AssertionError.", "quantifier": "every L >= 1, all random numbers of constructor, reset and run, all set iteration orders (L1), any arithmetic (L0; L1 except entropies)", "why_tests_cant": "the repository's test replays a handful of recorded files of L0; other seeds, lengths and classes are not seen", "anchors": ["run_py/rsbd_percolatioin_run.py:single_realization", "test_py/test_data_json.py:test_L0_for_all_files", "source_py/simulation/percolation_sq_lattice.py:SitePercolation.get_site_id_sequence", "source_py/simulation/percolation_sq_lattice.py:SitePercolation.get_index_sequence", "source_py/simulation/percolation_sq_lattice_L1L2.py:SitePercolationL2.select_site"]}
{"id": "C60", "title": "Row scan of relative indices passes until wrapping", "statement": "In every reachable state Lattice.test_rwo_col_scan() either passes or raises AssertionError; it passes exactly when, for any two occupied sites next to each other inside a row, the column components of their relative indices differ by 1 or length-1. It passes whenever no closed path through occupied sites winds around the lattice along the rows, in particular in every state in which nothing wraps; after wrapping there are states in which it raises although every relative index was maintained as intended.", "quantifier": "for every lattice length, every class (L0, L1, L2, shortest path), every history of placements, wrapping tests, resets and custom orders, and every random draw", "why_tests_cant": "the scan is a diagnostic over all rows; whether it can fail depends on the order in which clusters were merged, and failures appear only for rare orders after wrapping", "anchors": ["source_py/simulation/lattice.py:Lattice.test_rwo_col_scan", "source_py/simulation/percolation_sq_lattice.py:780"]}
{"id": "C61", "title": "Seeded runs are reproducible; what a realisation depends on", "statement": "With the random numbers taken from one generator (as the code does), the ensemble functions called with a seed write the same tables (or raise the same exception) whatever the generator's state was before the call; every generator-driven run is one of the runs covered by the other properties. What reset(); run_once() yields depends for L1 and L2 only on the generator's state, not on the object's past; for the base class, L0 and the shortest path class it also depends on the site order left by the previous run (two objects differing only in that order can give different critical values from the same generator state).", "quantifier": "for every generator (any state space, any seeding function), every L, class, ensemble size, every pair of generator states, every pair of histories in default mode, every arithmetic and set order", "why_tests_cant": "a test can compare two runs for one seed; independence of the earlier generator state and of the object's history is a statement about all states and histories", "anchors": ["source_py/simulation/percolation_sq_lattice.py:Percolation.__init__", "source_py/simulation/percolation_sq_lattice.py:SitePercolation.shuffle", "source_py/simulation/percolation_sq_lattice_L1L2.py:SitePercolationL1.select_site", "run_py/ensemble.py:run_ensemble_entropy_order_threads_v2", "run_py/shortest_path_run.py:ensemble_shortest_path_v2_thread"]}
{"id": "C62", "title": "Output files of different runs and workers do not collide", "statement": "The names of the written files are equal only if class, kind of table, lattice length, time (to the second) and worker number are all equal. After run_simulation_threads_v4, whatever the order in which the workers write, each worker's two tables are in their files and every other file is unchanged. The ensemble size and the seed are not part of the name: a second run of the same class and length whose worker i ends in the same second replaces worker i's file.", "quantifier": "for all classes, kinds, lattice lengths, (four-digit-year) times, worker numbers, numbers of workers, table contents, write orders and previous directory contents", "why_tests_cant": "name collisions between all pairs of configurations (e.g. a length running into the time field) and all interleavings of the workers' writes cannot be enumerated by tests", "anchors": ["run_py/ensemble.py:write_entropy_order", "run_py/ensemble.py:write_critical_values", "run_py/shortest_path_run.py:write_p_p_star", "run_py/rsbd_percolatioin_run.py:run_simulation_threads_v4", "source_py/simulation/percolation_sq_lattice.py:SitePercolation.get_signature"]}
{"id": "C63", "title": "Detection is only needed at the closing placement", "statement": "On a lattice with L >= 3, in any state reached by API calls in which wrapping has not been reported and no cluster next to the new site wraps, detect_wrapping() called right after a successful placement returns True exactly when the new site's cluster wraps around the torus, and then records p, the site count and the bond count of that cluster as critical values; if it returns False nothing changes. It does not matter how often detect_wrapping() was called before: as long as the occupied sites do not wrap, a state reached without the calls is also one that a run calling it after every placement reaches. In particular one call after the last placement decides wrapping if the configuration before that placement did not wrap.", "quantifier": "for every L >= 3, every class, every sequence of API calls (with or without detection calls), every random draw, set order and arithmetic", "why_tests_cant": "a test can skip detection for a few orders; that skipping calls never changes the answer is a statement about all sequences of operations and all cluster shapes", "anchors": ["source_py/simulation/percolation_sq_lattice.py:SitePercolation.detect_wrapping", "source_py/simulation/percolation_sq_lattice.py:SitePercolation.place_one_site"]}
{"id": "C64", "title": "The project's own tests pass for every seed and every length from 3 on", "statement": "The test functions test_simulation_L0_seed, test_simulation_L0_reset, the bodies of test_simulation_L0_different_lengths and _different_lengths_parametrize (and their L1 and L2 versions) pass for every lattice length >= 3 and all random numbers, including detect_wrapping() calls after rejected candidates and test_lattice() at every stage; for lengths 1 and 2 each of them raises AssertionError. custome_lattice_config_1 passes for every shuffle: more generally, after placing a list without any detection one final detect_wrapping() is right if the sites without the last one do not wrap. test_large_lattice passes for every length and test_custome_lattice for every order of its set. The loop of test_large stops right after the placement that makes the sites wrap (length >= 3) or fills the lattice (length 1, 2). test_simulation_L0_different_seeds (whose ten seeds are all None) and its L1 and L2 versions, test_custome_lattices, test_single, test_multiple_seeds pass for all random numbers and seeds; test_neighbors passes for every length. custome_lattice_config_2 with L0 passes and leaves exactly its twelve sites occupied; with L1 and L2 it always raises ValueError. The assertions at the end of the tests of the shortest path class hold exactly if the recorded point agrees with the rows and columns in the wrapping cluster. What the self checks detect: on an arbitrary (possibly damaged) lattice object scan_sites, scan_bonds, test_neighbor_count, the lattice's test_lattice and test_relative_index succeed exactly when the ids agree with the indices, the bond and site lists have the right lengths, are free of duplicates where required and refer to each other, all labels equal the given one, and every occupied site with an occupied neighbour has one at relative distance 1 or length-1 respectively.", "quantifier": "for every lattice length, class, random draw, set iteration order and arithmetic in which n/n compares equal to 1.0 and n/m (0 < n <= m) not equal to 0", "why_tests_cant": "the tests themselves run for a handful of lengths and seeds; that they hold for all of them is what makes their assertions an invariant of the program", "anchors": ["test_py/test_percolation_L0.py:test_simulation_L0_seed", "test_py/test_percolation_L0.py:test_simulation_L0_reset", "test_py/test_percolation_L0.py:custome_lattice_config_1", "test_py/test_percolation_sq_lattice_shortest_path.py:test_large_lattice", "source_py/simulation/percolation_sq_lattice.py:SitePercolation.test_lattice", "source_py/simulation/percolation_sq_lattice.py:test_large"]}
{"id": "C65", "title": "Rounding errors in the entropy stay bounded", "statement": "If every arithmetic operation has a relative error of at most u (the standard model of floating point; u = 2^-53 for Python floats) and the lattice is small enough for the precision (64 u * 2L^2 <= 1, i.e. L up to 2^23 for floats), then after any history entropy_v2() differs from the exact Shannon entropy of the bond clusters by at most 20 u (log(2L^2) + 1) (n + 1), n the number of sites placed since the last reset; entropy_v1() never raises and differs from it by at most 2 u (log(2L^2) + 1) (2L^2 + 4), whatever the history; so the two functions agree up to the sum of these bounds. Every entry of the entropy list of a complete run obeys the first bound, and the entropy reported for the full lattice, exactly 0, is at most 20 u (log(2L^2) + 1) (L^2 + 1) in absolute value.", "quantifier": "for every L within the precision, every class, every sequence of API calls, every random draw and set order, every arithmetic with relative error u without over- or underflow", "why_tests_cant": "a test compares two printed numbers on a few runs; that the incrementally updated value cannot drift away over any run needs an error bound for all placement orders", "anchors": ["source_py/simulation/percolation_sq_lattice.py:SitePercolation.entropy_add", "source_py/simulation/percolation_sq_lattice.py:SitePercolation.entropy_subtract", "source_py/simulation/percolation_sq_lattice.py:SitePercolation.entropy_v1", "source_py/simulation/percolation_sq_lattice.py:SitePercolation.entropy_v2"]}
{"id": "C66", "title": "The printed lattice shows the state", "statement": "viewLattice(f) never raises in a reachable state. viewLattice(4) prints L + 13 lines; line 8 numbers the columns and line 10 + r (counting from 0) shows r and then the group ids of the sites of row r from left to right; viewLattice(3) shows group id and relative index of each site in the same places. Two objects of any classes, lengths and histories print the same text exactly if the lattices have the same length and all sites the same group id (format 4), or the same group id and relative index (format 3). With the other formats line 6 + 3r shows the sites and horizontal bonds of row r and line 7 + 3r its vertical bonds: group id and id in format 1, id, row and column in format 2, row and column otherwise. list_all_sites() and list_all_bonds() show on line 1 + i the id, group id, position, (relative index,) and neighbours of element i. print_sites() and print_bonds() do the same and never print a warning.", "quantifier": "for every L, every class, every sequence of API calls, every random draw, set order and arithmetic", "why_tests_cant": "a test compares one text; that no information is lost or misplaced for any ids, signs and numbers of digits needs all states", "anchors": ["source_py/simulation/lattice.py:Lattice.view", "source_py/simulation/lattice.py:Lattice.view_site_gids", "source_py/simulation/lattice.py:Lattice.view_relative_index", "source_py/simulation/lattice.py:Lattice.list_all_sites", "source_py/simulation/lattice.py:Lattice.print_bonds", "source_py/simulation/site.py:Site.get_str", "source_py/simulation/bond.py:Bond.get_str", "source_py/simulation/percolation_sq_lattice.py:Percolation.viewLattice"]}
{"id": "C67", "title": "The printed clusters show the cluster pool", "statement": "In every reachable state viewCluster() lists exactly the clusters that have a bond, in increasing order of their id; the integers in its text are, for each of them, its id and its group id (both equal to its position in the pool), the number of its sites, the sites, the number of its bonds, the bonds; and at the end the number of clusters listed. Two objects print the same text exactly if the lattices have the same length and every cluster id has the same list of sites and the same list of bonds.", "quantifier": "for every L, every class, every sequence of API calls, every random draw, set order and arithmetic", "why_tests_cant": "a test compares one text; that emptied clusters never show up and that id and group id never diverge needs all histories of merges", "anchors": ["source_py/simulation/cluster.py:ClusterPool.view", "source_py/simulation/cluster.py:OneCluster.view", "source_py/simulation/percolation_sq_lattice.py:Percolation.viewCluster"]}
{"id": "C68", "title": "Nothing depends on where the lattice is cut or how it is turned", "statement": "If the sites placed on one object are the images of the sites placed on another under a shift of the periodic lattice, an exchange of rows and columns, a reflection, or a composition of these, in the same order, then occupation probability, both order parameters, get_pc(), both critical counts, the largest cluster, the wrapping flag and the clusters (up to the map) agree to the last bit, and the entropy agrees in exact arithmetic. run_once() over a custom list and over its image gives the same data array and critical values; the shortest-path class stops after the same number of placements with the same p*.", "quantifier": "for every L, every symmetry of the torus, every sequence of distinct sites, all classes, set orders, random draws and calls in between", "why_tests_cant": "covers all placement sequences and all symmetries; the boundary bonds are handled by separate code, so a test away from the boundary says nothing about one across it", "anchors": ["source_py/simulation/percolation_sq_lattice_L0.py:SitePercolationL0.run_once", "source_py/simulation/percolation_sq_lattice.py:SitePercolation.detect_wrapping", "source_py/simulation/percolation_sq_lattice.py:Percolation.get_relative_index", "source_py/simulation/percolation_sq_lattice_shortest_path.py:ShortestPathAfter_pc.run_once", "source_py/simulation/percolation_sq_lattice.py:SitePercolation.get_data_array"]}
{"id": "C69", "title": "The tables are unbiased estimates of the microcanonical averages", "statement": "If the random numbers of the shuffles are independent and uniform, then for SitePercolationL0 the expected value of row k of the entropy column of the table written by the ensemble drivers is the average entropy over all configurations of k+1 occupied sites, and that of the largest-cluster column the average relative size of their largest clusters, for every number of realisations. For L >= 3 each critical value p_c in the critical file satisfies: the probability that p_c <= n/L^2 is the fraction of the sets of n sites that wrap, and its mean is the sum over n < L^2 of the fractions that do not wrap, divided by L^2. The first column of the file of the shortest-path class has the same law.", "quantifier": "for every L (>= 3 for p_c), every number of realisations, every row, every n, both drivers, any constructor shuffle", "why_tests_cant": "an average over (L*L)! orders per realisation; realisations shuffle the list left by the one before, so independence has to be argued", "anchors": ["run_py/ensemble.py:run_ensemble_entropy_order", "run_py/ensemble.py:run_ensemble_entropy_order_threads_v2", "run_py/shortest_path_run.py:ensemble_shortest_path_v2_thread", "source_py/simulation/percolation_sq_lattice.py:SitePercolation.shuffle", "source_py/simulation/percolation_sq_lattice.py:SitePercolation.reset"]}
{"id": "C70", "title": "The selection probabilities of L1 and L2", "statement": "If the two random numbers of a call of place_one_site() are independent and uniform (a position among the w remaining candidates, one of four directions), then on an SitePercolationL1 object an empty site is placed with probability (4+f)/(4w), where f is the number of directions in which it has an occupied neighbour that is still a candidate; on an SitePercolationL2 object with probability (4+f+g)/(4w), where g counts the directions in which the next two sites are occupied, the second is still a candidate, and the step from it to the first does not cross the periodic boundary. Occupied sites are never placed, the remaining outcomes place nothing, the first site is uniform, and no empty site is more than twice (L1) or three times (L2) as likely as another. Because of the boundary condition the law of L2 is not invariant under translations.", "quantifier": "for every L, every history of calls in default mode, every empty site", "why_tests_cant": "a distribution over all states of the candidate list; the list loses sites in a history dependent way, and a statistical test cannot pin exact weights", "anchors": ["source_py/simulation/percolation_sq_lattice_L1L2.py:SitePercolationL1.select_site", "source_py/simulation/percolation_sq_lattice_L1L2.py:SitePercolationL2.select_site", "source_py/simulation/percolation_sq_lattice.py:SitePercolation.place_one_site"]}
{"id": "C71", "title": "Exceptions: which calls raise, and what is left", "statement": "On an object with any history (including caught exceptions): place_one_site() of the plain classes raises exactly when the next entry of the site list is an occupied site (AssertionError), in L1/L2 exactly when the candidate list is exhausted before L*L entries are used up (ValueError); detect_wrapping() exactly when no site was ever selected (TypeError); the set_custome_* methods exactly on an empty list (ValueError); reset() and shuffle() never; swap_ids() in default mode exactly for two different ids of which one is no site id (IndexError), in any mode exactly if one is no site id or its recorded position is beyond the end of the list, and then at most one entry has been overwritten. A placement that raises changes nothing but the selected site and raises again when repeated; a run_once() that raises has placed and recorded exactly the list entries before the first repeated one; the same for test_run_once(), which may also raise at the placement that makes the configuration wrap, for run_once() of the shortest path class, which leaves its results unchanged, and for L1/L2, which raise when the candidates are exhausted. Whatever is called afterwards (other than reset), raising or not, occupied sites stay occupied, clusters are only merged, the largest cluster does not shrink and the entropy does not grow; all invariants proved for histories hold after caught exceptions as well.", "quantifier": "for every L, class, history of calls with caught exceptions, list of ids and random draws", "why_tests_cant": "tests try single raising calls; that nothing else raises in any history and that the object stays consistent afterwards is a statement about all histories", "anchors": ["source_py/simulation/percolation_sq_lattice.py:SitePercolationL0.select_site", "source_py/simulation/percolation_sq_lattice.py:SitePercolation.place_one_site", "source_py/simulation/percolation_sq_lattice.py:SitePercolation.run_once", "source_py/simulation/percolation_sq_lattice.py:SitePercolation.swap_ids", "source_py/simulation/percolation_sq_lattice_L1L2.py:SitePercolationL1.select_site"]}
{"id": "C72", "title": "What is asked of the random generator", "statement": "Construction with seed=k is construction just after random.seed(k). Construction and reset() ask the generator for numbers below L*L, L*L-1, ..., 2 in this order (reset() with do_shuffle=False for none) and the placement order of L0 and the shortest-path class is the Fisher-Yates shuffle of the previous order with the answers. place_one_site() and run_once() of L0 and the shortest-path class ask for nothing; place_one_site() of L1 and L2 asks for a number below the number of remaining candidates and, only if the candidate found is occupied, for a second one below 4; it asks for nothing when no candidate is left. Hence n realisations of an ensemble of L0 or of the shortest-path class take exactly n+1 such blocks from the generator, starting at random.seed(k) if a seed is given, and the tables are functions of these answers.", "quantifier": "for every generator, state of the generator, seed, L, number of realisations and history of the object", "why_tests_cant": "a test sees one generator; that no other or differently ordered requests are made in any state is a statement about all generators and states", "anchors": ["source_py/simulation/percolation_sq_lattice.py:SitePercolation.shuffle", "source_py/simulation/percolation_sq_lattice_L1L2.py:SitePercolationL1.select_site", "source_py/simulation/percolation_sq_lattice_L1L2.py:SitePercolationL2.select_site", "run_py/ensemble.py:run_ensemble_entropy_order_threads_v2"]}
{"id": "C73", "title": "Wrapping is an infinite cluster of the periodic system", "statement": "Repeat the occupied sites of the L x L lattice periodically over the whole plane. In runs in which detection follows every placement and L >= 3, detect_wrapping() returns True exactly if some cluster of the repeated configuration is infinite. After any history, all copies of the sites of the wrapping cluster lie in infinite clusters; a finite cluster in the plane has exactly as many sites as the code counts in the cluster of the corresponding site; and for L >= 3 the relative indices of the sites of such a cluster draw it as it is in the plane.", "quantifier": "for every L, class, history and point of the plane", "why_tests_cant": "infinite clusters cannot be built by a test; the statement quantifies over all configurations and points", "anchors": ["source_py/simulation/percolation_sq_lattice.py:SitePercolation.detect_wrapping", "source_py/simulation/percolation_sq_lattice.py:SitePercolation.relabel_relative_indices", "source_py/simulation/percolation_sq_lattice.py:SitePercolation.get_relative_index"]}
{"id": "C74", "title": "Lists shared between the caller and percolation objects", "statement": "set_custome_site_id_list keeps a reference to the caller's list and get_site_id_sequence returns the internal list. As long as a list used by two objects is only given to SitePercolation/L0/shortest-path objects with do_shuffle=False and swap_ids is not called on them, every object behaves as if it had a list of its own, no call on one object has any effect on another, and the caller's list keeps its value. Otherwise the caller's list is reordered (do_shuffle=True: on setting, reset and shuffle), and L1, L2 and swap_ids overwrite entries, keeping its length; L1 and L2 bring in no new ids. reset() of the plain classes goes on with the same list object, so a sequence obtained before the reset is changed by it; L1 and L2 go on with a new list. set_custome_site_index_list always makes its own list. Without the rule, objects do interfere: an object can raise AssertionError on a list without repetitions.", "quantifier": "for every number of objects, classes, lengths, lists and every sequence of constructions, calls (returning or raising) and lists passed on", "why_tests_cant": "aliasing shows only for particular interleavings of calls on several objects; the statement quantifies over all of them", "anchors": ["source_py/simulation/percolation_sq_lattice.py:SitePercolation.set_custome_site_id_list", "source_py/simulation/percolation_sq_lattice.py:SitePercolation.set_custome_site_index_list", "source_py/simulation/percolation_sq_lattice.py:SitePercolation.get_site_id_sequence", "source_py/simulation/percolation_sq_lattice.py:SitePercolation.reset", "source_py/simulation/percolation_sq_lattice_L1L2.py:SitePercolationL1.select_site", "source_py/simulation/percolation_sq_lattice_L1L2.py:SitePercolationL1.reset"]}
{"id": "C75", "title": "What the demonstration functions do and print", "statement": "For every length and seed (the code fixes particular ones): test_site_percolation fills the lattice and its last listing shows a single cluster with all sites and all bonds. test_relative_index prints one table per placement for exactly the first sites of the shuffled list. test_detect_wrapping of the base module prints L*L lines with order parameter 0 (it detects nothing). In the L0 module the wrapping message appears in exactly the rounds from the first wrapping on (never for L <= 2); after reset the same holds for the reshuffled list; test_detect_wrapping stops at the first wrapping, prints occupation probability and order parameter of that moment, and get_pc() is that probability. test_L1, test_L2 and test_detect_wrapping_L1L2 go through exactly 5*L*L rounds and end with the full lattice in one cluster; tc printed by test_L1 is the moment of the first wrapping in the order of placement; the wrapping order parameter printed by test_detect_wrapping_L1L2 is 0 up to and including the round in which wrapping begins; test_L2 ends with get_pc() == 0. run_shortest_path prints the occupation probability at which for the first time the newly placed site completes a row or column of the wrapping cluster. ensemble_shortest_path_v1 prints the second column of what run_ensemble of the same script collects, numbered from 1.", "quantifier": "for every length and all random numbers (every seed)", "why_tests_cant": "these functions are run by eye with one fixed length and seed; the statement covers every length and every stream of random numbers", "anchors": ["source_py/simulation/percolation_sq_lattice.py:test_site_percolation", "source_py/simulation/percolation_sq_lattice.py:test_relative_index", "source_py/simulation/percolation_sq_lattice.py:test_detect_wrapping", "source_py/simulation/percolation_sq_lattice_L0.py:test_relative_index", "source_py/simulation/percolation_sq_lattice_L0.py:test_reset_relative_index", "source_py/simulation/percolation_sq_lattice_L0.py:test_detect_wrapping", "source_py/simulation/percolation_sq_lattice_L1L2.py:test_L1", "source_py/simulation/percolation_sq_lattice_L1L2.py:test_L2", "source_py/simulation/percolation_sq_lattice_L1L2.py:test_detect_wrapping_L1L2", "run_py/shortest_path_run.py:run_shortest_path", "run_py/shortest_path_run.py:ensemble_shortest_path_v1"]}
{"id": "C76", "title": "Bound on the relabelling work of the merges", "statement": "Between two resets the gid of a bond is changed at most log2(4 L^2) times and that of a site at most log2(8 L^2) times (not at all while the site is empty), whatever calls are made; so all merges of a complete run together rewrite at most 2 L^2 log2(4 L^2) bond gids. As long as no wrapping is detected, the cluster of a bond whose gid was changed n times has at least 2^n bonds; after that the same holds for every cluster but the wrapping cluster, which absorbs also larger clusters.", "quantifier": "for every class, length, history of calls and all random numbers and set iteration orders", "why_tests_cant": "a worst case over all placement orders; a test only shows the cost of the orders it tries", "anchors": ["source_py/simulation/percolation_sq_lattice.py:SitePercolation.merge_clusters_v2", "source_py/simulation/percolation_sq_lattice.py:SitePercolation.place_one_site", "source_py/simulation/percolation_sq_lattice.py:SitePercolation.run_once", "source_py/simulation/cluster.py:ClusterPool.merge_cluster_with"]}
{"id": "C77", "title": "The result lists an object hands out", "statement": "get_entropy_array, get_order_param_*_array and get_occupation_prob_array return the internal lists. Every call but reset, raising or not, only appends to them; reset changes none of them and makes the object use new, empty ones (the occupation probabilities: only if no run was completed, otherwise it is the same unchanged list for ever). So a list obtained before a reset keeps its entries whatever calls follow, an ensemble program can keep the entropy lists of all runs without copying them, and writing to a list obtained before the last reset does not influence the object.", "quantifier": "for every class, length, history of calls and writes by the caller, number of runs, random numbers and set iteration orders", "why_tests_cant": "aliasing shows only in particular interleavings of getters, calls and writes; a test tries a few of them", "anchors": ["source_py/simulation/percolation_sq_lattice.py:SitePercolation.get_entropy_array", "source_py/simulation/percolation_sq_lattice.py:SitePercolation.get_order_param_wrapping_array", "source_py/simulation/percolation_sq_lattice.py:SitePercolation.get_order_param_largest_array", "source_py/simulation/percolation_sq_lattice.py:SitePercolation.get_occupation_prob_array", "source_py/simulation/percolation_sq_lattice.py:SitePercolation.reset", "source_py/simulation/percolation_sq_lattice.py:SitePercolation.run_once", "source_py/simulation/percolation_sq_lattice.py:SitePercolation.test_run_once"]}
{"id": "C78", "title": "Which files the top-level functions leave behind", "statement": "run_simulation_threads_v4(L, En, T, interaction) (and _v3, which is interaction 0) with 1 <= T <= En and a directory data leaves, whatever the random numbers and the order in which the workers end, for each worker one table of means over En//T complete placement orders and the critical values of the same orders, with En//T as ensemble size in the header, and changes no other file. With T > En, T < 0, L = 0 or without the directory it returns normally and no file is written or changed; with T = 0 it raises ZeroDivisionError. run_simulation_threads() and _v2() pass the length where the class is expected: every thread raises TypeError and nothing is written, whatever lengths and sizes are put in. run_simulations() writes two files that do not depend on the generator's state. The shortest path driver writes one file per worker with En//T rows, also if that is 0. single_realization writes exactly one file. main.py raises before simulating anything if there is no directory logs, and otherwise logs 'No errors' even if all workers raised and nothing was written. print_hi() raises AttributeError at its first call.", "quantifier": "for every lattice length, ensemble size, number of workers, interaction, random numbers, time stamps, order of writing and previous contents of the directory", "why_tests_cant": "worker processes end in an order no test controls, exceptions in workers are invisible to the caller, and the empty-ensemble cases are never run", "anchors": ["run_py/rsbd_percolatioin_run.py:run_simulation_threads", "run_py/rsbd_percolatioin_run.py:run_simulation_threads_v2", "run_py/rsbd_percolatioin_run.py:run_simulation_threads_v3", "run_py/rsbd_percolatioin_run.py:run_simulation_threads_v4", "run_py/rsbd_percolatioin_run.py:run_simulations", "run_py/rsbd_percolatioin_run.py:single_realization", "run_py/ensemble.py:run_ensemble_entropy_order_threads_v2", "run_py/ensemble.py:run_ensemble_entropy_order_threads", "run_py/shortest_path_run.py:run_simulation_shortest_path_threads", "main.py:init_logging", "main.py:print_hi"]}
{"id": "C79", "title": "Every run ends, and how", "statement": "From every state a user can reach, also with custom site lists, run_once() and test_run_once() of every class end after at most L^2 + 4n rounds, n the length of the site list, whatever is drawn. run_once() of SitePercolationL0 returns normally exactly if the entries of the list not yet used are distinct and unoccupied, and raises AssertionError otherwise. run_once() of SitePercolationL1 and SitePercolationL2 raises ValueError exactly if the list has fewer than L^2 entries and fewer than L^2 of them have been used up, and returns normally otherwise. After such a run (also one that raised) all remaining candidates of a list of at most L^2 entries are occupied, no site is lost, and every newly occupied site is a candidate, a neighbour of one or, in L2, the next site straight on.", "quantifier": "for every class, lattice length, reachable state (any operations, any custom list) and all random draws", "why_tests_cant": "a run that does not end cannot be observed, and the rejection loop of L1 and L2 depends on unboundedly many draws", "anchors": ["source_py/simulation/percolation_sq_lattice.py:SitePercolation.run_once", "source_py/simulation/percolation_sq_lattice.py:SitePercolation.test_run_once", "source_py/simulation/percolation_sq_lattice_shortest_path.py:ShortestPathAfter_pc.run_once", "source_py/simulation/percolation_sq_lattice_L1L2.py:SitePercolationL1.select_site", "source_py/simulation/percolation_sq_lattice_L1L2.py:SitePercolationL2.select_site"]}
{"id": "C80", "title": "The counters of the L1 and L2 classes after a complete run", "statement": "In the default mode, once place_one_site() has returned False and after every run_once(), x_occupied of SitePercolationL1 and SitePercolationL2 is at least 4 L^2 and less than 5 L^2, and y_occupied of SitePercolationL2 is exactly 4 L^2, whatever was drawn: the number of rejected selections of a complete run is not random. So the summary printed by test_L1 contains a number between 4 L^2 and 5 L^2 - 1, and the second number of the summary printed by test_L2 is 4 L^2. Both bounds are attained.", "quantifier": "for every lattice length, every history in the default mode and all random draws", "why_tests_cant": "a property of all sequences of draws; tests see a few seeds", "anchors": ["source_py/simulation/percolation_sq_lattice_L1L2.py:SitePercolationL1.select_site", "source_py/simulation/percolation_sq_lattice_L1L2.py:SitePercolationL2.select_site", "source_py/simulation/percolation_sq_lattice_L1L2.py:SitePercolationL1.occupied_summary", "source_py/simulation/percolation_sq_lattice_L1L2.py:SitePercolationL2.occupied_summary", "source_py/simulation/percolation_sq_lattice_L1L2.py:test_L1", "source_py/simulation/percolation_sq_lattice_L1L2.py:test_L2"]}
{"id": "C81", "title": "Every cluster has exactly one root site", "statement": "In every state a user can reach, also after wrapping, each connected component of the occupied sites contains exactly one site whose is_root() is True. For L >= 3 the relative index of an occupied site is the displacement of a walk through occupied sites from that root to the site; for L <= 2 it is the difference of the two indices. A successful place_one_site() makes the placed site a root exactly when none of its neighbours was occupied, and a site occupied before is a root afterwards exactly when it was one and its gid has not changed.", "quantifier": "for every lattice length, class, history of calls and random draws", "why_tests_cant": "a property of all states after any number of merges", "anchors": ["source_py/simulation/site.py:Site.is_root", "source_py/simulation/percolation_sq_lattice.py:SitePercolation.merge_clusters_v2", "source_py/simulation/percolation_sq_lattice.py:SitePercolation.relabel_relative_indices"]}
{"id": "C82", "title": "What the accessors return", "statement": "get_cluster(c) returns the cluster with gid and id c, or an empty cluster with ids -1 if c has been merged into another one; from the number of bonds on it prints a message and returns None; negative ids count from the end and below minus the number of bonds it raises IndexError. The cluster with the gid of an occupied site lists exactly its connected component, and its description shows the two ids and the two counts. get_site_gids(ids) returns every gid once, for occupied sites as many as clusters are met, and prints id and gid of every listed site. get_site_gid_by_index depends on row * L + column only. For L >= 3 get_change_in_relative_index between a site and the relative index computed for its neighbour is the unit step. BondPercolation has an empty cluster pool: every lookup raises IndexError or returns None. mTest_neighbors never raises. Bond.add_connected_site and Site.add_connecting_bond called with single ids keep the first two and the first four; with list arguments they let a bond get three ends and a site seven bonds, never more; on the bonds and sites of a lattice they only print that there is no room.", "quantifier": "for every reachable state and every int argument", "why_tests_cant": "all states and all arguments", "anchors": ["source_py/simulation/cluster.py:ClusterPool.get_cluster", "source_py/simulation/cluster.py:OneCluster.__str__", "source_py/simulation/lattice.py:Lattice.get_site_gid_by_index", "source_py/simulation/percolation_sq_lattice.py:Percolation.get_site_gids", "source_py/simulation/percolation_sq_lattice.py:Percolation.get_change_in_relative_index", "source_py/simulation/percolation_sq_lattice.py:BondPercolation.__init__", "source_py/simulation/lattice.py:mTest_neighbors", "source_py/simulation/bond.py:Bond.add_connected_site", "source_py/simulation/site.py:Site.add_connecting_bond"]}
{"id": "C83", "title": "The shortest path class in the entropy drivers", "statement": "Given ShortestPathAfter_pc and at least one realisation, run_ensemble_entropy_order raises IndexError and writes nothing; run_ensemble_entropy_order_threads and run_ensemble_entropy_order_threads_v2 write a table with a header and no rows, and the latter a file of critical values with one row per realisation, which with the same random numbers is exactly the one written for SitePercolationL0. single_realization writes all sites of the lattice as the sequence although the run stops earlier, and empty lists of entropies and order parameters.", "quantifier": "for every lattice length, ensemble size and all random numbers", "why_tests_cant": "all random numbers and sizes; no exception tells the user that the table is empty", "anchors": ["source_py/simulation/percolation_sq_lattice_shortest_path.py:ShortestPathAfter_pc.run_once", "run_py/ensemble.py:run_ensemble_entropy_order", "run_py/ensemble.py:run_ensemble_entropy_order_threads_v2", "run_py/rsbd_percolatioin_run.py:single_realization"]}
{"id": "C84", "title": "Lines drawn beside the curves", "statement": "draw_vertical_line_at and draw_horizontal_line_at return the requested number of equidistant points from the start to the end of the range, all at the given value; with its default range draw_horizontal_line_at raises IndexError whatever the value and size. The intersection of a curve with a drawn horizontal line is the one with the bare level, namely where the curve first exceeds it. find_intersection_and_plot with axes returns what find_intersection returns and draws the sides and their changes; without axes (the default) it always raises.", "quantifier": "all values, ranges, sizes and curves", "why_tests_cant": "all curves and sizes; the failing default arguments are not exercised", "anchors": ["source_py/analyze/lines.py:draw_vertical_line_at", "source_py/analyze/lines.py:draw_horizontal_line_at", "source_py/analyze/lines.py:find_intersection_and_plot"]}
{"id": "C85", "title": "Command line parsing", "statement": "arguments.test2 ignores the command line and always prints the option --length without a value, leaving '100', '--ensemble', '20' as unparsed arguments. With its option lists no long option can ever carry a value (--length=… is an error, a number after --length ends the parsing), while -L a -E b yields both values.", "quantifier": "all command lines", "why_tests_cant": "all argument lists", "anchors": ["source_py/simulation/arguments.py:test", "source_py/simulation/arguments.py:test2"]}
{"id": "C86", "title": "Law of the shortest-path point; exact means for L = 3", "statement": "In the file of the shortest-path class every second entry has, for L = 3 and 4, the law of the first complete row or column of a uniformly random order: P(value ≤ n/L²) is the fraction of n-site sets that contain a complete line. For every L ≥ 3 that fraction is an upper bound and the mean of the entry is at least the mean stage of the first complete line, strictly more from L = 5 on. For L = 3 the mean of p_c is exactly 5/9 in both files and the mean shortest-path value is exactly 71/126.", "quantifier": "all L ≥ 3, all ensemble sizes and rows; averages over all outcomes of the shuffles", "why_tests_cant": "a statement about the distribution over all shuffles; sampling only estimates it", "anchors": ["source_py/simulation/percolation_sq_lattice_shortest_path.py:ShortestPathAfter_pc.run_once", "source_py/simulation/percolation_sq_lattice_L0.py"]}
{"id": "C87", "title": "Statistical error of the averages", "statement": "Averaging over E realisations divides the variance of every entry of the averaged table, and of the mean of the p_c column, exactly by E and does not change their means. The fraction of outcomes in which an entry is off by ε or more is at most 1/(4Eε²) for the order parameters and the mean p_c and (log 2L²)²/(4Eε²) for the entropy. For L ≥ 3 the variance of the mean p_c is given by the fractions of wrapping n-site sets; for L = 3 it is exactly 2/(189 E).", "quantifier": "all L, ensemble sizes, rows and columns, tolerances; averages over all outcomes of the shuffles", "why_tests_cant": "a statement about the distribution over all shuffles; the realisations of one object share its state (each shuffle starts from the order of the previous one), so independence is not obvious", "anchors": ["run_py/ensemble.py:run_ensemble_entropy_order", "run_py/ensemble.py:run_ensemble_entropy_order_threads_v2", "source_py/simulation/percolation_sq_lattice.py:reset"]}
{"id": "C88", "title": "Rounding errors in the averaged tables stay bounded", "statement": "In floating point arithmetic with unit roundoff u the table written by the ensemble drivers for E realisations of L0, L1 or L2 differs from the exact means over the same placement orders by at most a relative u(2E+9) in the occupation column, u(2E+9) in the two order parameters and u(log 2L²+1)(20(k+2)+2(E+4)) in the entropy of row k; the threshold in the critical file has relative error u, the counts of sites and bonds are exact. If u(2E+9)(2L²+1) < 1 the occupation column is strictly increasing. For 53-bit arithmetic this covers L ≤ 2^20 and E ≤ 2^30 (strictly increasing for L ≤ 2^10, E ≤ 2^20).", "quantifier": "all lengths, ensemble sizes, random numbers, rows, classes L0/L1/L2, and all arithmetics with relative error u and gradual underflow", "why_tests_cant": "a bound over all orders of additions and all ensemble sizes; tests compare single numbers with a tolerance", "anchors": ["run_py/ensemble.py:run_ensemble_entropy_order", "run_py/ensemble.py:run_ensemble_entropy_order_threads_v2", "source_py/simulation/percolation_sq_lattice.py:get_data_array"]}
{"id": "C89", "title": "The numbers in the table files read back as what was computed", "statement": "A number printed with %.10e reads back as the nearest decimal with eleven significant digits (relative error at most 1/(2·10^10)), printing preserves order and sign, and decimals of at most eleven digits are exact. A table file written by np.savetxt with a one-line header reads back with the same rows and columns. With 53-bit floats, 3 ≤ L ≤ 10^4 and up to 10^6 realisations, the file of averages determines the number of occupied sites in every row and gives the order parameters up to 5·10^-10, the file of critical values determines for every realisation the exact number of sites at the threshold and the exact size of the first wrapping cluster, and the file of the shortest path driver determines both numbers of sites, with pc ≤ p*.", "quantifier": "all numbers, all tables, all headers without line break, all lengths, ensemble sizes and random numbers in the stated ranges, all classes", "why_tests_cant": "the precision of the format against every value that can occur; tests never read the files back", "anchors": ["run_py/ensemble.py:write_entropy_order", "run_py/ensemble.py:write_critical_values", "run_py/shortest_path_run.py:write_p_p_star"]}
{"id": "C90", "title": "Headers and cross-check files read back, and the file test accepts exactly the right data", "statement": "The header line of every table file is one line of JSON that reads back as the lattice length, the ensemble size, date and time, the column names and the description, and every row of the table has as many numbers as columns are named. The cross-check file reads back as exactly the recorded data. Of the files the package writes, test_data_json.py finds exactly the cross-check files of SitePercolationL0; each of these passes the test, whatever the random numbers of the test. In exact arithmetic a file whose index sequence is an order of all sites passes exactly if the recorded threshold is near the true one, the recorded cluster sizes are the true ones, and the recorded lists agree with the true ones in the places of the entropy list; entries beyond that are not looked at.", "quantifier": "all lengths, ensemble sizes, times, column names and descriptions, all recorded data, all random numbers, all directories", "why_tests_cant": "the test is itself the subject: it checks some files on disk, not which files it would accept or reject", "anchors": ["run_py/ensemble.py:write_entropy_order", "run_py/ensemble.py:write_critical_values", "run_py/shortest_path_run.py:write_p_p_star", "run_py/rsbd_percolatioin_run.py:single_realization", "test_py/test_data_json.py:test_L0_for_all_files"]}
{"id": "C91", "title": "No site is favoured by L1, and the periodic boundary is visible in L2", "statement": "With all outcomes of the random numbers equally likely, a run of L1 with given placements is exactly as likely as its image under any symmetry of the periodic lattice, whatever order of the site list earlier runs left and in whatever order sets are iterated. Hence after any number of calls every site is occupied with the same probability (the mean number of occupied sites divided by L²), and every site is the k-th one to be placed with probability 1/L². The law of L2 is unchanged by exchange of rows and columns and by reversal of the rows, but not by translations: on the lattice of length 3 the first three calls place the sites 0, 1, 2 with 160 of the 36³ outcomes and the translated sites 2, 0, 1 with 120.", "quantifier": "all lengths, all numbers of calls, all new and reset objects, all symmetries of the torus, all set orders and arithmetics", "why_tests_cant": "a statement about the distribution of whole runs; tests look at single runs", "anchors": ["source_py/simulation/percolation_sq_lattice_L1L2.py:SitePercolationL1.select_site", "source_py/simulation/percolation_sq_lattice_L1L2.py:SitePercolationL2.select_site", "source_py/simulation/percolation_sq_lattice.py:SitePercolation.place_one_site"]}
{"id": "C92", "title": "L1 and L2 follow one growth process", "statement": "On a new or reset object, the sites placed by the calls of place_one_site of L1 and L2, and by run_once, are exactly those of a small process: draw a candidate and a direction; place the candidate if it is empty, else its neighbour, else (L2) the next site in that direction unless the step crosses the boundary; if nothing can be placed the candidate has failed, and after four failures it leaves the list, the first candidate taking its place. For reset() followed by run_once() the order is a function of the random numbers of the placements alone: the history of the object and the numbers used for shuffling play no role.", "quantifier": "all lengths, all new and reset objects, all random numbers, all numbers of calls, all set orders and arithmetics", "why_tests_cant": "an equivalence of two programs for all random numbers and all histories", "anchors": ["source_py/simulation/percolation_sq_lattice_L1L2.py:SitePercolationL1.select_site", "source_py/simulation/percolation_sq_lattice_L1L2.py:SitePercolationL2.select_site", "source_py/simulation/percolation_sq_lattice.py:SitePercolation.run_once"]}
{"id": "C93", "title": "Statistics of ensembles of L1 and L2", "statement": "With all outcomes of the random numbers of the placements equally likely and arbitrary numbers for the shuffles, the realisations of an ensemble of L1 or L2 are independent and identically distributed: the critical points are independent with the distribution of the stage at which the growth process wraps; every entry of the averaged table has as its mean the average of that quantity over the growth process, and E times smaller variance than for one realisation; the fraction of outcomes for which it is off by ε or more is at most 1/(4Eε²) (entropy column: (log 2L²)²/(4Eε²)). For L1 these averages are invariant under the symmetries of the torus. Exact arithmetic; critical points for L ≥ 3.", "quantifier": "all lengths, all ensemble sizes, all ε > 0, all shuffles", "why_tests_cant": "a statement about the distribution over all outcomes of the random numbers", "anchors": ["run_py/ensemble.py:run_ensemble_entropy_order", "source_py/simulation/percolation_sq_lattice_L1L2.py:SitePercolationL1.reset"]}
{"id": "C94", "title": "How many clusters can wrap at the same time", "statement": "After any history, closed walks in two different clusters wind around the lattice in parallel directions; as soon as a cluster wraps in two independent directions (for instance contains a complete row and a complete column) it is the only cluster that wraps, and all infinite clusters of the periodically repeated configuration consist of copies of it. For L >= 2 at most L/2 clusters wrap at the same time, and every number up to that occurs (every second row). When wrapping sets in, no cluster but the wrapping cluster wraps. Later the wrapping cluster need not be the largest cluster that wraps: for every L >= 5 there is an order after which another wrapping cluster has more bonds than the one counted by order_param_wrapping().", "quantifier": "all lengths, histories, clusters and closed walks; examples for every length", "why_tests_cant": "a topological statement about all configurations and all closed walks", "anchors": ["source_py/simulation/percolation_sq_lattice.py:SitePercolation.detect_wrapping", "source_py/simulation/percolation_sq_lattice.py:SitePercolation.order_param_wrapping"]}
{"id": "C95", "title": "Wrapping is the opposite of crossing empty paths", "statement": "With detection after every placement and L >= 3, detect_wrapping() returns False exactly if the empty sites contain two closed paths, with straight and diagonal steps, that go around the periodic lattice in independent directions; equally for after_wrapping. After any history, once wrapping was detected all closed paths of empty sites are parallel to all closed walks of occupied sites and to each other; in particular wrapping is not detected as long as one row and one column are empty.", "quantifier": "all lengths, classes and histories; all closed paths", "why_tests_cant": "an equivalence with the existence of paths of any length, for all configurations", "anchors": ["source_py/simulation/percolation_sq_lattice.py:SitePercolation.detect_wrapping"]}
{"id": "C96", "title": "The latest possible wrapping, exactly", "statement": "With detection after every placement and L >= 3, wrapping has been detected as soon as fewer than L + floor((L-1)/2) sites are empty, so at the latest with site number L*L - L - floor((L-1)/2) + 1, and get_pc() <= 1 - (L + floor((L-1)/2) - 1)/L^2. For every L >= 3 the bound is attained: placing the antidiagonal and half of the diagonal last, run_once() detects wrapping with exactly this site.", "quantifier": "all lengths L >= 3, all orders; the extreme order for every length", "why_tests_cant": "an extremal statement over all configurations of every lattice size", "anchors": ["source_py/simulation/percolation_sq_lattice.py:SitePercolation.detect_wrapping", "source_py/simulation/percolation_sq_lattice.py:SitePercolation.get_pc", "source_py/simulation/percolation_sq_lattice.py:SitePercolation.run_once"]}
{"id": "C97", "title": "Interference through shared lists cannot spoil the cluster bookkeeping", "statement": "Objects of any classes and of one length may share custom site lists without precaution: other objects may shuffle, swap or overwrite them, and the caller may assign any site ids to their entries. Every object is then always in a state in which all the claims about arbitrary histories hold (cluster labels are connected components, counters, largest cluster, wrapping, entropy, ...). A call acts on its own object as if the list were private; of another object it changes at most entries of the site order, which stay site ids. This fails if objects of different lengths share a list (IndexError), or if the internal random order of an object is passed to another one (swap_ids then loses an id).", "quantifier": "for every number of objects, classes, length, lists and every interleaving of calls (returning or raising) and assignments", "why_tests_cant": "aliasing shows only for particular interleavings of calls on several objects; the statement quantifies over all of them", "anchors": ["source_py/simulation/percolation_sq_lattice.py:SitePercolation.set_custome_site_id_list", "source_py/simulation/percolation_sq_lattice.py:SitePercolation.get_site_id_sequence", "source_py/simulation/percolation_sq_lattice.py:SitePercolation.swap_ids", "source_py/simulation/percolation_sq_lattice.py:SitePercolation.shuffle", "source_py/simulation/percolation_sq_lattice_L1L2.py:SitePercolationL1.select_site"]}
{"id": "C98", "title": "The measured threshold stays away from 0 and 1 on all lattices", "statement": "If the random numbers of the shuffles are independent and uniform, every value p_c in the critical file of SitePercolationL0 and in the first column of the shortest-path file satisfies for every L >= 3 and x = n/L^2: P(p_c <= x) <= L^2 ((1+sqrt 2) x)^L and P(p_c > x) <= L^2 ((2+sqrt 5)(1-x))^L, and its mean is between x (1 - L^2 ((1+sqrt 2) x)^L) and x + L^2 ((2+sqrt 5)(1-x))^L. Hence on large lattices p_c and its mean lie between sqrt 2 - 1 = 0.414 and 3 - sqrt 5 = 0.764 up to any tolerance. For L = 100, p_c <= 1/4 and p_c > 9/10 have probability below 1e-17.", "quantifier": "for every L >= 3, n, number of realisations and row; all outcomes of the shuffles; the limit for every tolerance", "why_tests_cant": "exponentially small probabilities and statements about all lattice sizes cannot be sampled", "anchors": ["run_py/ensemble.py:run_ensemble_entropy_order", "run_py/ensemble.py:run_ensemble_entropy_order_threads_v2", "run_py/shortest_path_run.py:ensemble_shortest_path_v2_thread", "source_py/simulation/percolation_sq_lattice.py:SitePercolation.shuffle", "source_py/simulation/percolation_sq_lattice.py:SitePercolation.reset"]}
{"id": "C99", "title": "On large lattices the shortest-path point is near 1", "statement": "If the random numbers of the shuffles are independent and uniform, the second entry of every row of the shortest-path file satisfies for L >= 3 and x = n/L^2: P(value <= x) <= 2 L x^L, and its mean is at least x (1 - 2 L x^L). Hence it tends to 1 as L grows, in probability and in the mean, while the mean of the first entry (p_c) stays below 4/5: the straight line that stops run_once appears only when almost all sites are occupied.", "quantifier": "for every L >= 3, n, number of realisations and row; all outcomes of the shuffles; the limit for every tolerance", "why_tests_cant": "a statement about a limit of lattice sizes and about all outcomes of the random numbers", "anchors": ["source_py/simulation/percolation_sq_lattice_shortest_path.py:ShortestPathAfter_pc.run_once", "source_py/simulation/percolation_sq_lattice_L0.py"]}
{"id": "C100", "title": "At low density the table shows small clusters and high entropy", "statement": "If the random numbers of the shuffles are independent and uniform, then for SitePercolationL0, every row k of the table written by the ensemble drivers, x = (k+1)/L^2 and every 0 < r < L: the expected largest-cluster column is at most 2(2r-1)^2/L^2 + L^2((1+sqrt 2)x)^(r+1), and the expected entropy column is at least log(L^2/(2(2r-1)^2)) (1 - L^2((1+sqrt 2)x)^(r+1)) if 2(2r-1)^2 <= L^2. Hence for every density below sqrt 2 - 1 = 0.414 the order parameter tends to 0 and the entropy to infinity as L grows, uniformly in all rows up to that density.", "quantifier": "for every L, r, row and number of realisations, both drivers; all outcomes of the shuffles; the limit for every density below sqrt 2 - 1 and every tolerance", "why_tests_cant": "expected values over all outcomes of the random numbers and limits over all lattice sizes", "anchors": ["run_py/ensemble.py:run_ensemble_entropy_order", "run_py/ensemble.py:run_ensemble_entropy_order_threads_v2", "run_py/shortest_path_run.py:ensemble_shortest_path_v2_thread", "source_py/simulation/percolation_sq_lattice.py:SitePercolation.shuffle", "source_py/simulation/percolation_sq_lattice.py:SitePercolation.reset"]}
{"id": "C101", "title": "Near the full lattice, and entropy against largest cluster", "statement": "After any history with exactly m < L empty sites, largest_cluster() is at least 2L^2 - 2m^2 of the 2L^2 bonds, and if wrapping was detected the wrapping cluster has at least as many; so order_param_largest_clstr() and order_param_wrapping() are at least 1 - m^2/L^2 (with detection after every placement and L >= 3 wrapping was detected). In exact arithmetic, after any history, -log P <= entropy() <= (1 - P)(1 + log 2L^2) with P = order_param_largest_clstr(). The averaged table has the same bounds in its last L rows, for all random numbers, and H <= (1 - P_largest)(1 + log 2L^2) in every row.", "quantifier": "all L, classes and histories, every m < L; tables of L0, L1 and L2 for all random numbers and numbers of realisations", "why_tests_cant": "bounds over all arrangements of the empty sites and all histories", "anchors": ["source_py/simulation/percolation_sq_lattice.py:SitePercolation.order_param_largest_clstr", "source_py/simulation/percolation_sq_lattice.py:SitePercolation.order_param_wrapping", "source_py/simulation/percolation_sq_lattice.py:SitePercolation.entropy", "run_py/ensemble.py:run_ensemble_entropy_order"]}
{"id": "C102", "title": "One giant cluster at high density", "statement": "After any history, if no closed path of empty sites with straight and diagonal steps goes around the lattice, then once wrapping was detected a site belongs to the wrapping cluster of the code exactly if its cluster wraps around the lattice; and every occupied site whose cluster does not wrap is surrounded by a path of empty sites. In the table of SitePercolationL0 with L >= 3, in a row of density x with rho = (2 + sqrt 5)(1 - x) < 1 and delta = 1 - x + (3/5) rho^3/(1 - rho) + L^2 rho^L, the expected P_wrapping is at least 1 - delta, the expected P_largest is at least the expected P_wrapping, and the expected H is at most delta (1 + log 2L^2). So on all sufficiently large lattices the expected order parameters are at least 4/5 in all rows of density 9/10 or more.", "quantifier": "all L, classes and histories for the structure; all L >= 3, numbers of realisations, rows with rho < 1, and the mean over all outcomes of the random numbers, for the table", "why_tests_cant": "an expectation over all random numbers on lattices of every size, and a fact about all configurations of every size", "anchors": ["source_py/simulation/percolation_sq_lattice.py:SitePercolation.order_param_largest_clstr", "source_py/simulation/percolation_sq_lattice.py:SitePercolation.order_param_wrapping", "source_py/simulation/percolation_sq_lattice.py:SitePercolation.entropy", "run_py/ensemble.py:run_ensemble_entropy_order"]}
{"id": "C103", "title": "The member lists of clusters that were handed out", "statement": "get_sites(g) and get_bonds(g) of the cluster pool return the list of the cluster itself. A list obtained at any moment of any history and read at any later moment is either still the list of that cluster and shows exactly what the same call would return now, or there was one moment, a placement that merged the cluster away and left it empty or a reset, since which the list shows unchanged what it showed just before. A list is only ever extended at its end, it belongs to at most one cluster and one kind, and from the detection of wrapping to the next reset the lists of the wrapping cluster stay its lists.", "quantifier": "all lattice lengths, classes, histories of calls (also inside run_once), moments of obtaining and of reading, cluster ids and both kinds of list", "why_tests_cant": "which list objects are shared depends on the whole history of merges; a test sees one history and one moment", "anchors": ["source_py/simulation/cluster.py:ClusterPool.get_sites", "source_py/simulation/cluster.py:ClusterPool.get_bonds", "source_py/simulation/cluster.py:ClusterPool.merge_cluster_with", "source_py/simulation/cluster.py:OneCluster.clear", "source_py/simulation/percolation_sq_lattice.py:SitePercolation.merge_clusters_v2"]}
{"id": "C104", "title": "Interference with the list of site ids cannot damage the clusters", "statement": "get_site_id_sequence() returns the list in use and set_custome_site_id_list keeps the caller's list. Whatever others do to that list between the calls (appending, removing, replacing by any site ids, in any mode), lattice, clusters, counters, entropy and wrapping data are those of some undisturbed history: labels are the connected components, the counter is the number of occupied sites, wrapping is reported only if the occupied sites wrap. A placement then raises in the plain class exactly with IndexError if the list ends before the iteration limit or AssertionError if the next entry is occupied, in L1 and L2 exactly with ValueError if the list is no longer than the position reached, and a raising placement changes nothing but the selected site.", "quantifier": "all lattice lengths, classes, histories of calls and of changes of the list to any list of site ids, all random draws", "why_tests_cant": "any change of the list at any moment of any history is possible; tests can try a few", "anchors": ["source_py/simulation/percolation_sq_lattice.py:SitePercolation.get_site_id_sequence", "source_py/simulation/percolation_sq_lattice.py:SitePercolation.set_custome_site_id_list", "source_py/simulation/percolation_sq_lattice.py:SitePercolation.select_site", "source_py/simulation/percolation_sq_lattice_L1L2.py:SitePercolationL1.select_site", "source_py/simulation/percolation_sq_lattice_L1L2.py:SitePercolationL2.select_site"]}
{"id": "C105", "title": "How many realisations are enough", "statement": "If the random numbers are independent and uniform, the fraction of the outcomes for which an entry of the averaged table of E realisations differs from the value it estimates by eps times the range of its column or more is at most 2 exp(-2 E eps^2); that any entry of the whole table does, at most 6 L^2 exp(-2 E eps^2), so E >= log(6 L^2/delta)/(2 eps^2) realisations are enough; the same bound 2 exp(-2 E eps^2) holds for the mean critical point and for the means of both columns of the shortest-path file.", "quantifier": "all lattice lengths, classes L0, L1, L2 and shortest path, numbers of realisations, eps > 0, delta > 0, both drivers, all set orders, all random numbers that do not matter", "why_tests_cant": "a statement about the distribution of the output over all outcomes of the random numbers", "anchors": ["run_py/ensemble.py:run_ensemble_entropy_order", "run_py/ensemble.py:run_ensemble_entropy_order_threads_v2", "run_py/shortest_path_run.py:ensemble_shortest_path_v2_thread", "source_py/simulation/percolation_sq_lattice.py:SitePercolation.reset"]}
{"id": "C106", "title": "No overflow, no NaN: real Python floats", "statement": "With IEEE doubles and a logarithm that is off by at most one unit in the last place, entropy(), entropy_v1(), occupation_prob() and every number in the averaged tables, the critical-value lists and the files is finite; the error bounds of the exact values hold; occupation_prob() lies between 0 and 1, is 1.0 exactly on the full lattice and increases strictly with the number of occupied sites; entropy_v1() of the full lattice is -0.0; the files contain neither inf nor nan, can be read back and determine the numbers of occupied sites exactly.", "quantifier": "all reachable states with L <= 2^22; all ensembles with L <= 2^20 and at most 2^30 realisations (files: 3 <= L <= 10^4, at most 4*10^5 realisations); all classes, draws, set orders and all implementations of math.log with that accuracy", "why_tests_cant": "overflow, cancellation and rounding depend on the whole history of operations; a test sees single histories and one C library", "anchors": ["source_py/simulation/percolation_sq_lattice.py:SitePercolation.entropy_v1", "source_py/simulation/percolation_sq_lattice.py:SitePercolation.entropy_subtract", "source_py/simulation/percolation_sq_lattice.py:SitePercolation.entropy_add", "source_py/simulation/percolation_sq_lattice.py:SitePercolation.occupation_prob", "run_py/ensemble.py:run_ensemble_entropy_order", "run_py/ensemble.py:run_ensemble_entropy_order_threads_v2", "run_py/shortest_path_run.py:ensemble_shortest_path_v2_thread"]}
{"id": "C107", "title": "The numbers in the files: sampling, rounding and printing errors together", "statement": "The order in which sites are placed does not depend on the floating point arithmetic or on the iteration order of sets. The files written with Python floats and read back agree with the results of exact arithmetic for the same random numbers up to (10^-9 + 2.5*10^-14 L^2) times the range of the column, the thresholds up to a relative error of 10^-10 and the numbers of sites and bonds exactly. With uniform random numbers the fraction of outcomes for which some number in the file of averages is off from the exact average over all configurations (L0) or over the growth process (L1, L2) by eps plus that tolerance is at most 6 L^2 exp(-2 E eps^2), and 2 exp(-2 E eps^2) for the mean threshold. The lines of the shortest-path file agree with exact arithmetic up to a relative error of 10^-10, and the means of its two columns are within eps + 10^-10 of the mean threshold of L0 and of the mean stopping point except for a fraction 2 exp(-2 E eps^2). Example: L = 100 and 2500 to 400000 realisations give all averages within 6 percent of the range except for one outcome in fifty.", "quantifier": "all L <= 10^4, all numbers of realisations up to 4*10^5, all eps > 0, all set orders, all constructors' shuffles, both forms of the driver, all logarithms with relative error 2^-52", "why_tests_cant": "a statement about all outcomes of the random numbers and about three kinds of errors at once; a test sees single ensembles and cannot compute the exact averages", "anchors": ["run_py/ensemble.py:run_ensemble_entropy_order", "run_py/ensemble.py:run_ensemble_entropy_order_threads", "run_py/ensemble.py:run_ensemble_entropy_order_threads_v2", "source_py/simulation/percolation_sq_lattice.py:SitePercolation.run_once", "source_py/simulation/percolation_sq_lattice.py:SitePercolation.get_data_array", "run_py/shortest_path_run.py:ensemble_shortest_path_v2_thread"]}
{"id": "C108", "title": "From the words of the generator to the files", "statement": "When the generator puts out independent uniform 32-bit words and numbers are made from them as CPython does (the upper bits of one word, rejected if too large), every request for a number below n is answered uniformly and independently of the others, a new object has each order of the sites with probability 1/(L^2)!, and every event about the results of the ensemble drivers of L0, L1, L2 and the shortest-path class has exactly the probability it has when the choices are uniform and independent. So with probability at least 1 - 6 L^2 exp(-2 E eps^2) over the words the driver ends without exception and all numbers in its file of averages are closer than eps (plus the rounding tolerance) times the range to the exact averages; L = 100 with 2500 or more realisations: 6 percent with probability 49/50.", "quantifier": "all L with L^2 < 2^32 (for the files L <= 10^4), all numbers of realisations, all events, all arithmetics and set orders (for the files: IEEE doubles), all n < 2^32", "why_tests_cant": "a statement about the probability measure on infinite sequences of words and about rejection loops of unbounded length", "anchors": ["source_py/simulation/percolation_sq_lattice.py:SitePercolation.shuffle", "source_py/simulation/percolation_sq_lattice_L1L2.py:SitePercolationL1.select_site", "source_py/simulation/percolation_sq_lattice_L1L2.py:SitePercolationL2.select_site", "run_py/ensemble.py:run_ensemble_entropy_order", "run_py/ensemble.py:run_ensemble_entropy_order_threads_v2"]}
{"id": "C109", "title": "Floats in the cross-check files are read back bit for bit", "statement": "A finite float written by json.dumps is a JSON number, and float() of that text is the same float, including the sign of zero. The text has at most 17 digits; no number with fewer digits is rounded to the float and none with the same number of digits that is rounded to it is closer. The double nearest to a decimal with at most 15 digits is written as that decimal; for example the recorded threshold is written exactly whenever n/L^2 has at most 15 decimals. The files of single_realization contain no infinity or NaN for L up to 2^22, reading them gives back what was written bit for bit, and with Python's floats test_data_json.py accepts every file written for SitePercolationL0 although it compares entropies for equality.", "quantifier": "all finite doubles, all L <= 2^22, all random numbers, all set orders, all logarithms with relative error 2^-52, all times", "why_tests_cant": "there are 2^64 floats and all runs of all sizes to consider; a test sees single files", "anchors": ["run_py/rsbd_percolatioin_run.py:single_realization", "test_py/test_data_json.py:test_L0_for_all_files", "source_py/simulation/percolation_sq_lattice.py:SitePercolation.get_pc"]}
{"id": "C110", "title": "Seeds: which ones give the same results and which give different random numbers", "statement": "random.seed(k) for an int k makes the 32-bit words of the Mersenne Twister seeded with the base-2^32 digits of |k|. Hence seeds k and -k, and for 2 <= k < 2^32 also the seeds k and k + (k-1)*2^32, give the same objects, tables and files in every seeded program. Different seeds in 0..2^32-1 (more generally different non-negative seeds with the same number of 32-bit digits, up to 621) give different words, with a difference among the first 624. No seed leads to a generator that puts out zeros only.", "quantifier": "all ints as seeds, all lattice lengths, classes, ensemble sizes, all prior states of the generator", "why_tests_cant": "there are infinitely many seeds; that no two of the 2^32 one-digit seeds collide cannot be found by trying pairs", "anchors": ["source_py/simulation/percolation_sq_lattice.py:Percolation.__init__", "run_py/ensemble.py:run_ensemble_entropy_order_threads_v2", "run_py/shortest_path_run.py:ensemble_shortest_path_v2_thread"]}
{"id": "C111", "title": "How random the order of the sites is with Python's generator", "statement": "Over all blocks of 624 words any 623 consecutive words of the generator take every value equally often. So for lattices up to L = 14 every event about the placement order of a new object happens for a fraction of the blocks that differs by less than 2^-63 from its probability when all (L^2)! orders are equally likely, and a similar bound holds for ensembles with few requests. The generator puts out exactly 2^19937 different sequences of words, each periodic from its beginning with a period of at most 2^19937. For L >= 46 there are placement orders that no seed and no state of the generator ever produces.", "quantifier": "all states of the generator, all lattice lengths, all events about orders and results", "why_tests_cant": "the statements count all 2^19968 blocks and all (L^2)! orders", "anchors": ["source_py/simulation/percolation_sq_lattice.py:SitePercolation.shuffle", "run_py/ensemble.py:run_ensemble_entropy_order"]}
{"id": "C112", "title": "What the functions with a fixed seed print and write", "statement": "The functions that fix a seed have the same outcome on every run, whatever the iteration order of sets, the arithmetic and the previous use of the generator: the placement orders of their objects are the listed ones; run_shortest_path() prints 22/36; test_detect_wrapping() of the L0 module prints 19 lines with the listed sizes of the largest cluster and stops with p = 19/36; test_relative_index() reports the wrapping 18 times and test_reset_relative_index() 16 times and, after the reset, 21 times, with critical values 19/36, 21/36 and 16/36; run_simulations() writes, in exact arithmetic, the listed 25 rows of averages (occupied fraction, entropy, both order parameters) and the listed 100 rows of critical values, sites and bonds of the wrapping cluster; with Python's floats the written files, read back, agree with this table to about 1e-9 (counts exactly, thresholds up to 1e-10 relative).", "quantifier": "all iteration orders of sets, all arithmetics, all earlier states of the generator, all times", "why_tests_cant": "one run shows the outcome for one set order and one prior state; that nothing but the seed matters is a statement about all of them", "anchors": ["run_py/shortest_path_run.py:run_shortest_path", "run_py/rsbd_percolatioin_run.py:run_simulations", "source_py/simulation/percolation_sq_lattice_L0.py:test_detect_wrapping", "source_py/simulation/percolation_sq_lattice_L0.py:test_reset_relative_index"]}
{"id": "C113", "title": "Seeded runs of L1 and L2 are those of the growth process fed by the generator", "statement": "A realisation of L1 or L2 asks the generator for the numbers of a shuffle (unused), and then in every call for a candidate and, only if that site is occupied, for a direction; it places the sites the growth rules give for these numbers, and leaves the generator in the state the growth process leaves it in. The tables of a seeded ensemble are the means and critical values of these placement orders; test_L1, test_detect_wrapping_L1L2 and test_L2 print, after each of 5 L^2 calls, the state of the sites placed so far, and test_L1 with its seed 0 ends with tc = 21/36.", "quantifier": "all generators, seeds, lengths, ensemble sizes, set orders; arithmetic exact for tables and arbitrary for printed values", "why_tests_cant": "a test sees one seed; which random numbers are requested, in which order and with which ranges, in every state of every run, is not observable from results of samples", "anchors": ["source_py/simulation/percolation_sq_lattice_L1L2.py:SitePercolationL1.select_site", "source_py/simulation/percolation_sq_lattice_L1L2.py:SitePercolationL2.select_site", "source_py/simulation/percolation_sq_lattice_L1L2.py:test_L1", "run_py/ensemble.py"]}
{"id": "C114", "title": "The recorded data files are right, and what the comparison test can find", "statement": "The data files for L = 5 and L = 10 contain the true data of their placement order: critical values, both order parameters exactly, and the entropies up to 2e-13. Whatever the iteration order of sets and the logarithm of the C library (if it is accurate to one unit in the last place), test_data_json.py recomputes from such a file the threshold, counts and order parameters bit for bit and entropies that differ from the recorded ones by at most 1e-9; as these are compared with ==, the test passes exactly if they are the same bit for bit.", "quantifier": "the two files; all set orders, all logarithms with relative error at most 2^-52, all draws; for the replay: all files that contain true data, L from 3 to 100", "why_tests_cant": "the test itself compares with the files; whether the files are right, and whether the outcome depends on set order or platform, no test can tell", "anchors": ["test_py/test_data_json.py:test_L0_for_all_files", "data_pytest/SitePercolationL0__percolation_cross_check_data_L5_20210329_192337.txt", "data_pytest/SitePercolationL0__percolation_cross_check_data_L10_20210329_192124.txt"]}
