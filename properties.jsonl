{"id": "C01", "title": "Inferred constraints are exactly the transitive closure of the added ones", "statement": "After any history, get_inferred_constraint(a,b) returns MUST_LINK iff a and b are joined by a chain of added MUST_LINK constraints (a chain may be empty), returns CANNOT_LINK iff some added CANNOT_LINK constraint joins the MUST_LINK chain class of a to that of b, and returns None otherwise. Nothing stale survives a deletion and nothing derivable is missed.", "quantifier": "every initial list of data IDs and every finite history of add_data_ID / delete_data_ID / add_constraint / delete_constraint calls (successful or raising), and every pair of managed IDs", "why_tests_cant": "Closure must hold after every interleaving of additions and deletions over graphs of any size; tests sample a few graphs.", "anchors": ["src/cognitivefactory/interactive_clustering/constraints/binary.py:get_inferred_constraint", "src/cognitivefactory/interactive_clustering/constraints/binary.py:_add_constraint_transitivity", "src/cognitivefactory/interactive_clustering/constraints/binary.py:_generate_constraints_transitivity"]}
{"id": "C02", "title": "The managed list is the history's list, in order and without duplicates", "statement": "After any history, get_list_of_managed_data_IDs returns the initial IDs (first occurrences only) with each successful add_data_ID appended at the end and each successful delete_data_ID removed, in that order, never containing an ID twice.", "quantifier": "every initial list of data IDs and every finite history of add_data_ID / delete_data_ID / add_constraint / delete_constraint calls (successful or raising), and every pair of managed IDs", "why_tests_cant": "Ordering and uniqueness are claims about all histories.", "anchors": ["src/cognitivefactory/interactive_clustering/constraints/binary.py:__init__", "src/cognitivefactory/interactive_clustering/constraints/binary.py:add_data_ID", "src/cognitivefactory/interactive_clustering/constraints/binary.py:delete_data_ID", "src/cognitivefactory/interactive_clustering/constraints/binary.py:get_list_of_managed_data_IDs"]}
{"id": "C03", "title": "A manager can never be driven into a contradictory state", "statement": "After any history no pair of IDs is both must-linked and cannot-linked: there always exists an assignment of clusters to IDs that satisfies every added constraint at once.", "quantifier": "every initial list of data IDs and every finite history of add_data_ID / delete_data_ID / add_constraint / delete_constraint calls (successful or raising), and every pair of managed IDs", "why_tests_cant": "Consistency has to survive every order of accepted additions and deletions.", "anchors": ["src/cognitivefactory/interactive_clustering/constraints/binary.py:add_constraint"]}
{"id": "C04", "title": "add_constraint refuses exactly the constraints that would make the set unsatisfiable", "statement": "For managed IDs and a valid type, add_constraint raises the conflict ValueError iff no cluster assignment satisfies all already added constraints together with the new one; otherwise it returns True.", "quantifier": "every reachable manager, every pair of IDs, every constraint type string", "why_tests_cant": "Both directions quantify over all cluster assignments and all histories.", "anchors": ["src/cognitivefactory/interactive_clustering/constraints/binary.py:add_constraint", "src/cognitivefactory/interactive_clustering/constraints/binary.py:get_inferred_constraint"]}
{"id": "C05", "title": "A call that raises changes nothing", "statement": "Whenever add_data_ID, delete_data_ID, add_constraint or delete_constraint raises, the manager is left exactly as it was before the call.", "quantifier": "every reachable manager and every call with any arguments", "why_tests_cant": "All failing argument combinations in all states.", "anchors": ["src/cognitivefactory/interactive_clustering/constraints/binary.py:add_data_ID", "src/cognitivefactory/interactive_clustering/constraints/binary.py:delete_data_ID", "src/cognitivefactory/interactive_clustering/constraints/binary.py:add_constraint", "src/cognitivefactory/interactive_clustering/constraints/binary.py:delete_constraint"]}
{"id": "C06", "title": "add_constraint changes only the pair it names", "statement": "After a successful add_constraint(a,b,t), get_added_constraint(a,b) and (b,a) give (t,1.0); every other pair's added constraint and the managed list are unchanged; and if the pair already had an added constraint the call changes nothing at all.", "quantifier": "every reachable manager, every accepted call, every other pair", "why_tests_cant": "Frame conditions range over all untouched pairs.", "anchors": ["src/cognitivefactory/interactive_clustering/constraints/binary.py:add_constraint", "src/cognitivefactory/interactive_clustering/constraints/binary.py:get_added_constraint"]}
{"id": "C07", "title": "delete_constraint forgets exactly one annotation", "statement": "After delete_constraint(a,b) on managed IDs, the added constraint of (a,b) and (b,a) is None, every other added constraint and the managed list are unchanged, the call returns True, and deleting again changes no added constraint.", "quantifier": "every reachable manager and pair", "why_tests_cant": "Frame condition over all pairs and histories; the internal table is rebuilt from scratch on each deletion.", "anchors": ["src/cognitivefactory/interactive_clustering/constraints/binary.py:delete_constraint", "src/cognitivefactory/interactive_clustering/constraints/binary.py:_generate_constraints_transitivity"]}
{"id": "C08", "title": "delete_data_ID removes an ID and every trace of it", "statement": "After delete_data_ID(x), x is unmanaged, every added constraint between the remaining IDs is unchanged, and links that were only derivable through x are no longer inferred: inference equals the closure of the remaining added constraints.", "quantifier": "every reachable manager and managed ID x, every remaining pair", "why_tests_cant": "Depends on all paths through x in arbitrary graphs.", "anchors": ["src/cognitivefactory/interactive_clustering/constraints/binary.py:delete_data_ID", "src/cognitivefactory/interactive_clustering/constraints/binary.py:_generate_constraints_transitivity"]}
{"id": "C09", "title": "add_data_ID adds an isolated ID", "statement": "After a successful add_data_ID(x): x is must-linked to itself only and unrelated (None) to every other ID, and the added and inferred constraints between the other IDs are unchanged. It raises iff x was already managed.", "quantifier": "every reachable manager, every ID x, every other pair", "why_tests_cant": "Ranges over all states; the update is done incrementally rather than by regeneration.", "anchors": ["src/cognitivefactory/interactive_clustering/constraints/binary.py:add_data_ID"]}
{"id": "C10", "title": "Both constraint getters are symmetric", "statement": "get_added_constraint(a,b) = get_added_constraint(b,a) and get_inferred_constraint(a,b) = get_inferred_constraint(b,a), for managed IDs.", "quantifier": "every initial list of data IDs and every finite history of add_data_ID / delete_data_ID / add_constraint / delete_constraint calls (successful or raising), and every pair of managed IDs", "why_tests_cant": "Storage is asymmetric (ordered pairs, per-ID tables), so symmetry is an invariant of all histories.", "anchors": ["src/cognitivefactory/interactive_clustering/constraints/binary.py:get_added_constraint", "src/cognitivefactory/interactive_clustering/constraints/binary.py:get_inferred_constraint"]}
{"id": "C11", "title": "MUST_LINK is an equivalence and CANNOT_LINK respects it", "statement": "Inferred MUST_LINK is reflexive, symmetric and transitive on managed IDs; inferred CANNOT_LINK is irreflexive and if a is must-linked to a' and b to b' then (a,b) is cannot-linked iff (a',b') is.", "quantifier": "every initial list of data IDs and every finite history of add_data_ID / delete_data_ID / add_constraint / delete_constraint calls (successful or raising), and every pair of managed IDs, and every triple/quadruple of IDs", "why_tests_cant": "Congruence is quantified over all quadruples of IDs in all states.", "anchors": ["src/cognitivefactory/interactive_clustering/constraints/binary.py:get_inferred_constraint"]}
{"id": "C12", "title": "Connected components partition the managed IDs", "statement": "get_connected_components returns non-empty, duplicate-free, pairwise disjoint lists covering exactly the managed IDs; two managed IDs are in the same list iff their inferred constraint is MUST_LINK; lists come in the order of their earliest managed ID.", "quantifier": "every initial list of data IDs and every finite history of add_data_ID / delete_data_ID / add_constraint / delete_constraint calls (successful or raising), and every pair of managed IDs", "why_tests_cant": "Components are deduplicated by list equality, which is only correct if all members of a component share one ordering, an invariant of all histories.", "anchors": ["src/cognitivefactory/interactive_clustering/constraints/binary.py:get_connected_components"]}
{"id": "C13", "title": "Completeness check is exact", "statement": "check_completude_of_constraints returns True iff every pair of managed IDs has an inferred constraint (MUST_LINK or CANNOT_LINK).", "quantifier": "every initial list of data IDs and every finite history of add_data_ID / delete_data_ID / add_constraint / delete_constraint calls (successful or raising), and every pair of managed IDs", "why_tests_cant": "The code only compares set sizes; exactness needs disjointness and duplicate-freeness in every state.", "anchors": ["src/cognitivefactory/interactive_clustering/constraints/binary.py:check_completude_of_constraints"]}
{"id": "C14", "title": "The reported maximum number of clusters is tight", "statement": "The second component of get_min_and_max_number_of_clusters is the largest number of clusters any assignment respecting all inferred constraints can use, and is reached by one.", "quantifier": "every reachable non-empty manager, every cluster assignment, every node order chosen by the colouring", "why_tests_cant": "Quantifies over all cluster assignments.", "anchors": ["src/cognitivefactory/interactive_clustering/constraints/binary.py:get_min_and_max_number_of_clusters"]}
{"id": "C15", "title": "Every cluster count from the reported minimum to the maximum is feasible", "statement": "With at least two connected components, 2 <= min <= max and for each k with min <= k <= max there is an assignment with exactly k clusters that violates no inferred constraint.", "quantifier": "every reachable manager with at least two components, every order in which each greedy colouring visits nodes, every k", "why_tests_cant": "Quantifies over all node orders (random strategies) and all k.", "anchors": ["src/cognitivefactory/interactive_clustering/constraints/binary.py:get_min_and_max_number_of_clusters"]}
{"id": "C16", "title": "The reported minimum is an estimate only, and degenerate managers are not covered", "statement": "The reported minimum is at least 2 even when one cluster would do, so it is not a lower bound on feasible counts; with a single component the reported minimum (2) exceeds the maximum (1); with no managed ID the call raises ValueError.", "quantifier": "existence of managers / all managers of the stated shapes", "why_tests_cant": "Shows where the docstring's range claim fails; the single-component and empty cases are for all such managers.", "anchors": ["src/cognitivefactory/interactive_clustering/constraints/binary.py:get_min_and_max_number_of_clusters"]}
{"id": "C17", "title": "Conflict report matches the conflict and is exact", "statement": "get_list_of_involved_data_IDs_in_a_constraint_conflict(a,b,t) returns None iff add_constraint(a,b,t) would not raise a conflict, and otherwise returns, without duplicates, exactly the managed IDs must-linked to a or to b.", "quantifier": "every reachable manager, pair of managed IDs and valid type", "why_tests_cant": "All states and pairs.", "anchors": ["src/cognitivefactory/interactive_clustering/constraints/binary.py:get_list_of_involved_data_IDs_in_a_constraint_conflict", "src/cognitivefactory/interactive_clustering/constraints/binary.py:add_constraint"]}
{"id": "C18", "title": "Saving and loading a manager preserves everything it knows", "statement": "Loading what to_json wrote never raises and gives a manager with the same managed list in the same order, the same added constraint for every pair of distinct IDs and the same inferred constraint for every pair, hence the same completeness verdict, and the same components up to order inside a component. The only difference: an ID whose self-constraint had been deleted gets it back.", "quantifier": "every initial list of data IDs and every finite history of add_data_ID / delete_data_ID / add_constraint / delete_constraint calls (successful or raising), and every pair of managed IDs", "why_tests_cant": "Round-trip over all reachable managers; reload replays constraints in a different order from the original history.", "anchors": ["src/cognitivefactory/interactive_clustering/constraints/binary.py:to_json", "src/cognitivefactory/interactive_clustering/constraints/binary.py:load_constraints_manager_from_json"]}
{"id": "C19", "title": "Inference does not depend on the order of annotation", "statement": "Two managers with the same managed IDs and the same added constraints between distinct IDs give the same inferred constraint for every pair, the same components as sets, completeness verdict and conflict decisions, whatever histories produced them.", "quantifier": "every two reachable managers", "why_tests_cant": "Quantifies over pairs of histories.", "anchors": ["src/cognitivefactory/interactive_clustering/constraints/binary.py:get_inferred_constraint", "src/cognitivefactory/interactive_clustering/constraints/binary.py:add_constraint", "src/cognitivefactory/interactive_clustering/constraints/binary.py:_generate_constraints_transitivity"]}
{"id": "C20", "title": "Knowledge is monotone", "statement": "A successful add_constraint never changes an inferred constraint that was not None; delete_constraint never turns a None inference into a constraint nor a MUST_LINK into CANNOT_LINK or vice versa.", "quantifier": "every reachable manager, every call, every pair", "why_tests_cant": "All states and pairs.", "anchors": ["src/cognitivefactory/interactive_clustering/constraints/binary.py:add_constraint", "src/cognitivefactory/interactive_clustering/constraints/binary.py:delete_constraint"]}
{"id": "C21", "title": "Only documented exceptions", "statement": "In any history, constraint-manager methods raise nothing but the documented ValueErrors, each exactly under its documented condition: no KeyError or other internal failure can surface (apart from min/max on an empty manager).", "quantifier": "every initial list of data IDs and every finite history of add_data_ID / delete_data_ID / add_constraint / delete_constraint calls (successful or raising), and every pair of managed IDs, with arbitrary arguments", "why_tests_cant": "Absence of internal failures over all states.", "anchors": ["src/cognitivefactory/interactive_clustering/constraints/binary.py:BinaryConstraintsManager"]}
{"id": "C22", "title": "Constraint values are always 1.0", "statement": "Whatever constraint_value is passed, every added constraint read back has value 1.0; the value and threshold arguments never change any result.", "quantifier": "every initial list of data IDs and every finite history of add_data_ID / delete_data_ID / add_constraint / delete_constraint calls (successful or raising), and every pair of managed IDs, every value argument", "why_tests_cant": "All values and histories.", "anchors": ["src/cognitivefactory/interactive_clustering/constraints/binary.py:add_constraint", "src/cognitivefactory/interactive_clustering/constraints/binary.py:get_added_constraint"]}
{"id": "C23", "title": "A saved file is decodable, and a truncated one is never accepted", "statement": "The JSON text written for a manager decodes to exactly the managed IDs and constraints written, for IDs made of arbitrary characters; if the write is cut at any earlier point (crash), decoding the partial text fails rather than yielding a smaller manager.", "quantifier": "every manager content with arbitrary ID strings, every crash point (strict prefix of the text)", "why_tests_cant": "All strings with escapes, all truncation points.", "anchors": ["src/cognitivefactory/interactive_clustering/constraints/binary.py:to_json", "src/cognitivefactory/interactive_clustering/constraints/binary.py:load_constraints_manager_from_json"]}
{"id": "C24", "title": "Samples are well-formed, distinct and satisfy every restriction", "statement": "Every pair returned by sample is an ordered pair (id1 < id2) of managed IDs, no pair is returned twice, pairs respect the cluster restriction, and pairs already added / already inferred are excluded when the corresponding option is on.", "quantifier": "every reachable manager, sampler configuration, clustering, distances, random choice and nb_to_select", "why_tests_cant": "All inputs and random outcomes.", "anchors": ["src/cognitivefactory/interactive_clustering/sampling/clusters_based.py:sample"]}
{"id": "C25", "title": "Samples have the requested size whenever possible", "statement": "sample returns exactly min(nb_to_select, number of eligible pairs) pairs; nb_to_select = 0 gives the empty list, a negative number raises ValueError.", "quantifier": "as C24, all nb_to_select", "why_tests_cant": "All inputs and random outcomes.", "anchors": ["src/cognitivefactory/interactive_clustering/sampling/clusters_based.py:sample"]}
{"id": "C26", "title": "Closest-neighbour sampling is optimal", "statement": "With distance_restriction=closest_neighbors the returned pairs are in non-decreasing distance order and no eligible pair left out is strictly closer than a returned one; ties are resolved in enumeration order.", "quantifier": "every manager, distance table, restriction setting and nb_to_select", "why_tests_cant": "All distance tables.", "anchors": ["src/cognitivefactory/interactive_clustering/sampling/clusters_based.py:sample"]}
{"id": "C27", "title": "Farthest-neighbour sampling is optimal", "statement": "With distance_restriction=farthest_neighbors the returned pairs are in non-increasing distance order and no eligible pair left out is strictly farther than a returned one; ties are resolved in enumeration order.", "quantifier": "every manager, distance table, restriction setting and nb_to_select", "why_tests_cant": "All distance tables.", "anchors": ["src/cognitivefactory/interactive_clustering/sampling/clusters_based.py:sample"]}
{"id": "C28", "title": "Nothing left to sample iff constraints are complete", "statement": "With default options, no cluster restriction and nb_to_select >= 1, sample returns the empty list iff check_completude_of_constraints is True.", "quantifier": "every reachable manager, random outcome, nb_to_select >= 1", "why_tests_cant": "Relates two APIs in all states.", "anchors": ["src/cognitivefactory/interactive_clustering/sampling/clusters_based.py:sample", "src/cognitivefactory/interactive_clustering/constraints/binary.py:check_completude_of_constraints"]}
{"id": "C29", "title": "Interactive annotation against a ground truth never conflicts and terminates", "statement": "If every sampled pair is annotated according to a fixed ground-truth clustering, no add_constraint raises, each batch of one annotation strictly decreases the number of unknown pairs, so after at most n(n-1)/2 annotations the constraints are complete, and then the connected components are exactly the ground-truth clusters.", "quantifier": "every ID list, ground-truth clustering, sampling choice sequence", "why_tests_cant": "Quantifies over all schedules of sampled pairs.", "anchors": ["src/cognitivefactory/interactive_clustering/sampling/clusters_based.py:sample", "src/cognitivefactory/interactive_clustering/constraints/binary.py:add_constraint", "src/cognitivefactory/interactive_clustering/constraints/binary.py:get_connected_components"]}
{"id": "C30", "title": "Cluster renaming preserves the partition and is canonical", "statement": "rename_clusters_by_order keeps the keys, two IDs share a new label iff they shared an old one, labels are exactly 0..k-1 in order of first appearance along sorted IDs, the result is idempotent and depends only on the partition, and the result dict is in sorted ID order.", "quantifier": "every dict from IDs to integers", "why_tests_cant": "All dictionaries.", "anchors": ["src/cognitivefactory/interactive_clustering/clustering/abstract.py:rename_clusters_by_order"]}
{"id": "C31", "title": "COP-KMeans output satisfies every constraint", "statement": "Whenever cluster returns, IDs with inferred MUST_LINK have equal labels and IDs with inferred CANNOT_LINK have different labels.", "quantifier": "every reachable manager, vectors/distances, seed (shuffle), nb_clusters >= 2, max_iteration >= 1, tolerance", "why_tests_cant": "All data, seeds and iteration counts.", "anchors": ["src/cognitivefactory/interactive_clustering/clustering/kmeans.py:_clustering_kmeans_model_COP"]}
{"id": "C32", "title": "COP-KMeans labels every managed ID with contiguous labels", "statement": "The result's keys are exactly the managed IDs (sorted), labels are exactly 0..k-1 with k between 1 and the number of connected components, for a non-empty manager.", "quantifier": "as C31", "why_tests_cant": "All data, seeds and iteration counts.", "anchors": ["src/cognitivefactory/interactive_clustering/clustering/kmeans.py:_clustering_kmeans_model_COP", "src/cognitivefactory/interactive_clustering/clustering/kmeans.py:cluster"]}
{"id": "C33", "title": "COP-KMeans terminates without internal failure", "statement": "On a non-empty reachable manager whose IDs all have vectors and nb_clusters >= 2, cluster returns after at most max_iteration passes and raises no exception; nb_clusters None or < 2 raises ValueError.", "quantifier": "as C31", "why_tests_cant": "Termination and absence of KeyError (e.g. in the centroid shift) for all data.", "anchors": ["src/cognitivefactory/interactive_clustering/clustering/kmeans.py:cluster", "src/cognitivefactory/interactive_clustering/clustering/kmeans.py:_clustering_kmeans_model_COP", "src/cognitivefactory/interactive_clustering/clustering/kmeans.py:compute_centroids"]}
{"id": "C34", "title": "COP-KMeans assigns to the nearest admissible centroid", "statement": "In each pass, when an ID is assigned and some centroid's cluster holds no ID cannot-linked to it, it receives an admissible cluster whose centroid is at minimal distance among admissible ones; otherwise it opens a fresh cluster not used by any other ID.", "quantifier": "every pass, every state inside the pass", "why_tests_cant": "All intermediate states.", "anchors": ["src/cognitivefactory/interactive_clustering/clustering/kmeans.py:_clustering_kmeans_model_COP"]}
{"id": "C35", "title": "Hierarchical clustering output satisfies every constraint", "statement": "Whenever cluster returns, IDs with inferred MUST_LINK have equal labels and IDs with inferred CANNOT_LINK have different labels, for each linkage.", "quantifier": "every reachable manager, distance table, linkage, nb_clusters >= 2", "why_tests_cant": "All data.", "anchors": ["src/cognitivefactory/interactive_clustering/clustering/hierarchical.py:cluster", "src/cognitivefactory/interactive_clustering/clustering/hierarchical.py:compute_predicted_clusters", "src/cognitivefactory/interactive_clustering/clustering/hierarchical.py:_compute_distance"]}
{"id": "C36", "title": "Hierarchical clustering labels every managed ID with contiguous labels and never fails internally", "statement": "For a non-empty reachable manager and nb_clusters >= 2, cluster terminates after fewer merges than there are components, raises nothing, and returns labels 0..k-1 on exactly the managed IDs.", "quantifier": "as C35", "why_tests_cant": "Termination of two loops and absence of KeyError/IndexError for all data.", "anchors": ["src/cognitivefactory/interactive_clustering/clustering/hierarchical.py:cluster", "src/cognitivefactory/interactive_clustering/clustering/hierarchical.py:_get_the_two_clostest_clusters", "src/cognitivefactory/interactive_clustering/clustering/hierarchical.py:compute_predicted_clusters"]}
{"id": "C37", "title": "The dendrogram is a well-formed laminar tree", "statement": "After cluster, the root's members are exactly the managed IDs, each inner node's members are the disjoint union of its children's members, leaves are exactly the connected components, cluster IDs are unique, inverse depth is the height, and each proper non-root node contains no cannot-linked pair.", "quantifier": "as C35, every node of the tree", "why_tests_cant": "All trees that can be built.", "anchors": ["src/cognitivefactory/interactive_clustering/clustering/hierarchical.py:Cluster", "src/cognitivefactory/interactive_clustering/clustering/hierarchical.py:_add_new_cluster_by_merging_clusters", "src/cognitivefactory/interactive_clustering/clustering/hierarchical.py:_add_new_cluster_by_setting_members"]}
{"id": "C38", "title": "Cutting the dendrogram finer refines the clustering", "statement": "After cluster, for k1 <= k2 and either exploration criterion, compute_predicted_clusters(k2) refines compute_predicted_clusters(k1): IDs together in the finer cut are together in the coarser one.", "quantifier": "every tree, k1 <= k2, criterion", "why_tests_cant": "All trees and cut sizes.", "anchors": ["src/cognitivefactory/interactive_clustering/clustering/hierarchical.py:compute_predicted_clusters"]}
{"id": "C39", "title": "Number of clusters returned by a dendrogram cut", "statement": "With by='iteration' a cut at k <= number of components returns at least k clusters, and exactly k when no cannot-link forced the root merge to be wider than two; with by='size' fewer than k clusters can be returned although k were available.", "quantifier": "every tree and k; existence for the shortfall", "why_tests_cant": "All trees; the shortfall needs a specific shape.", "anchors": ["src/cognitivefactory/interactive_clustering/clustering/hierarchical.py:compute_predicted_clusters"]}
{"id": "C40", "title": "Cutting before clustering is refused", "statement": "compute_predicted_clusters raises ValueError iff no successful cluster call has set the root.", "quantifier": "every history of calls on the object", "why_tests_cant": "All call histories.", "anchors": ["src/cognitivefactory/interactive_clustering/clustering/hierarchical.py:compute_predicted_clusters", "src/cognitivefactory/interactive_clustering/clustering/hierarchical.py:__init__"]}
{"id": "C41", "title": "C-DBScan labels every managed ID", "statement": "cluster returns a label for exactly the managed IDs: regular labels are 0..k-1, and each unclustered ID gets its own distinct negative label -1,-2,...; number_of_regular_clusters, number_of_single_noise_point_clusters and number_of_clusters are exactly the numbers of distinct regular, negative and all labels.", "quantifier": "every reachable manager, distance table, eps > 0, min_samples >= 1, hash order of sets", "why_tests_cant": "All data.", "anchors": ["src/cognitivefactory/interactive_clustering/clustering/dbscan.py:cluster"]}
{"id": "C42", "title": "C-DBScan never fails internally", "statement": "On any reachable manager with vectors for all IDs, cluster terminates and raises no KeyError/IndexError/ValueError (unless nb_clusters is given).", "quantifier": "as C41", "why_tests_cant": "All data; several lookups and min() calls rely on invariants.", "anchors": ["src/cognitivefactory/interactive_clustering/clustering/dbscan.py:cluster"]}
{"id": "C43", "title": "C-DBScan does not always honour MUST_LINK", "statement": "There are managers and distance tables for which the result puts two must-linked IDs in different clusters.", "quantifier": "existence", "why_tests_cant": "Shows a guarantee users may assume from the other algorithms does not hold.", "anchors": ["src/cognitivefactory/interactive_clustering/clustering/dbscan.py:cluster"]}
{"id": "C44", "title": "C-DBScan never puts cannot-linked IDs in one cluster", "statement": "Whenever cluster returns, two IDs with inferred CANNOT_LINK have different labels (the must-link merging step performs no conflict check, yet no conflict can arise).", "quantifier": "as C41", "why_tests_cant": "All data; depends on congruence of the inferred constraints and on the whole merging history.", "anchors": ["src/cognitivefactory/interactive_clustering/clustering/dbscan.py:cluster"]}
{"id": "C45", "title": "Spectral: constraints are imprinted on the similarity matrix", "statement": "The matrix handed to the spectral solver has 1 at every inferred MUST_LINK pair (diagonal included), 0 at every inferred CANNOT_LINK pair and the original kernel value elsewhere, symmetrically; the result's labels are the solver's labels renamed canonically over exactly the managed IDs.", "quantifier": "every reachable manager, kernel matrix and solver output", "why_tests_cant": "All matrices.", "anchors": ["src/cognitivefactory/interactive_clustering/clustering/spectral.py:clustering_spectral_model_SPEC"]}
{"id": "C46", "title": "Affinity propagation keeps must-links whenever it runs (absolute mode)", "statement": "With absolute_must_links=True, unless all similarities are equal, must-linked IDs get the same label whatever the message passing computes; if it never converges all IDs get one single label, which is always the case when max_iteration <= convergence_iteration.", "quantifier": "every reachable manager, similarity matrix, message-passing outcome", "why_tests_cant": "All numeric outcomes.", "anchors": ["src/cognitivefactory/interactive_clustering/clustering/affinity_propagation.py:cluster", "src/cognitivefactory/interactive_clustering/clustering/affinity_propagation.py:_affinity_propagation_constrained"]}
{"id": "C47", "title": "Affinity propagation drops must-links on equidistant data", "statement": "With absolute_must_links=True, if all pairwise distances are equal and positive, every ID gets its own cluster, so any inferred MUST_LINK between distinct IDs is violated.", "quantifier": "every reachable manager with at least two IDs and equal positive distances", "why_tests_cant": "A whole family of inputs.", "anchors": ["src/cognitivefactory/interactive_clustering/clustering/affinity_propagation.py:_affinity_propagation_constrained", "src/cognitivefactory/interactive_clustering/clustering/affinity_propagation.py:_equal_similarities_and_preferences"]}
{"id": "C48", "title": "MPC-KMeans preprocessing reproduces the manager's closure and never rejects a manager", "statement": "On any reachable manager whose components fit into the recursion limit the preprocessing succeeds (no inconsistency error), its neighbourhoods are exactly the connected components and its cannot-link graph is exactly the inferred CANNOT_LINK relation.", "quantifier": "every reachable manager", "why_tests_cant": "All constraint graphs.", "anchors": ["src/cognitivefactory/interactive_clustering/clustering/mpckmeans.py:preprocess_constraints", "src/cognitivefactory/interactive_clustering/clustering/mpckmeans.py:_dfs"]}
{"id": "C49", "title": "MPC-KMeans cannot repair an empty cluster when fewer than ten are requested", "statement": "In the assignment step, with nb_clusters < 10 the step raises ValueError iff some cluster received no point; with nb_clusters >= 10 and at least as many points it never raises and leaves no cluster empty.", "quantifier": "every label vector produced by the arg-min loop, every distance table", "why_tests_cant": "All label vectors.", "anchors": ["src/cognitivefactory/interactive_clustering/clustering/mpckmeans.py:_assign_clusters"]}
{"id": "C50", "title": "Cluster frequencies form a distribution", "statement": "compute_clusters_frequency returns, for a non-empty clustering, exactly the used labels in increasing order, each with a positive frequency equal to (members/total), summing to 1; empty input gives the empty dict.", "quantifier": "every clustering dict", "why_tests_cant": "All dictionaries (exact arithmetic).", "anchors": ["src/cognitivefactory/interactive_clustering/utils/frequency.py:compute_clusters_frequency"]}
{"id": "C51", "title": "Factories build what they name", "statement": "clustering_factory and sampling_factory raise ValueError on every unknown name; on a known name they build an object of the named class, with the documented default for every option that is not given, or fail because an option value is outside its documented range (ValueError) or of the wrong type (TypeError); managing_factory raises ValueError exactly on unknown names; sampling_factory's four algorithms are exactly the four documented restriction combinations, and repeating one of the fixed options is a TypeError; options that are not documented are stored but change nothing.", "quantifier": "every algorithm string and option set", "why_tests_cant": "All strings.", "anchors": ["src/cognitivefactory/interactive_clustering/sampling/factory.py:sampling_factory", "src/cognitivefactory/interactive_clustering/clustering/factory.py:clustering_factory", "src/cognitivefactory/interactive_clustering/constraints/factory.py:managing_factory"]}
{"id": "C52", "title": "Text utilities keep the key set and remove listed punctuation before tokenisation", "statement": "preprocess and vectorize return a dict with exactly the input keys in the input order; no character from the punctuation list reaches the tokenizer, the option flags only ever remove tokens, and the value of a key depends on its own text only; a text that is not a string makes preprocess fail but not vectorize; compatibility decomposition, applied last, can put listed punctuation back.", "quantifier": "every dict of texts, every language pipeline", "why_tests_cant": "All texts and pipelines.", "anchors": ["src/cognitivefactory/interactive_clustering/utils/preprocessing.py:preprocess", "src/cognitivefactory/interactive_clustering/utils/vectorization.py:vectorize"]}
{"id": "C53", "title": "Clustering objects can be reused", "statement": "For each of the six clustering classes, the answer (clusters or exception) of a cluster call on an object that was used before is the answer on a new object with the same parameters; when it succeeds, all attributes are those of a new object after the call. Earlier calls may have failed half way.", "quantifier": "every list of earlier operations with any managers, vectors and numeric outcomes, then every call", "why_tests_cant": "All histories of calls, including calls that raise in the middle; a stale attribute shows only for particular sequences.", "anchors": ["src/cognitivefactory/interactive_clustering/clustering/kmeans.py:cluster", "src/cognitivefactory/interactive_clustering/clustering/hierarchical.py:cluster", "src/cognitivefactory/interactive_clustering/clustering/dbscan.py:cluster", "src/cognitivefactory/interactive_clustering/clustering/spectral.py:cluster", "src/cognitivefactory/interactive_clustering/clustering/affinity_propagation.py:cluster", "src/cognitivefactory/interactive_clustering/clustering/mpckmeans.py:cluster"]}
{"id": "C54", "title": "Hierarchical clustering merges the two closest clusters", "statement": "Every inner node of the tree merges two clusters that existed at its creation, without a cannot-link between them, at minimal (linkage distance, size) among all such pairs; the only exception is the root, which may merge all remaining clusters, and then any two of them have a cannot-link between them.", "quantifier": "every reachable manager, vectors, linkage, inner node", "why_tests_cant": "All merge orders and ties; the distance cache must be right at every step.", "anchors": ["src/cognitivefactory/interactive_clustering/clustering/hierarchical.py:_get_the_two_clostest_clusters", "src/cognitivefactory/interactive_clustering/clustering/hierarchical.py:_compute_distance", "src/cognitivefactory/interactive_clustering/clustering/hierarchical.py:cluster"]}
{"id": "C55", "title": "A dendrogram cut by iteration is a past state of the merging", "statement": "The clusters returned by compute_predicted_clusters(k, by='iteration') are exactly the clusters that existed at some moment of the merging.", "quantifier": "every tree and k", "why_tests_cant": "All trees.", "anchors": ["src/cognitivefactory/interactive_clustering/clustering/hierarchical.py:compute_predicted_clusters"]}
{"id": "C56", "title": "C-DBScan's density labels mean what they say", "statement": "After a call: every managed ID is labelled; a CORE ID has min_samples IDs within eps without a cannot-link among them; a NOISE ID has fewer than min_samples non-SINGLE_CORE IDs within eps; a SINGLE_CORE ID is near an ID whose eps-neighbourhood contains a cannot-link. Without any cannot-link, CORE iff at least min_samples IDs are within eps, NOISE otherwise.", "quantifier": "every reachable manager, vectors, eps, min_samples", "why_tests_cant": "All data and processing orders: labels change while IDs are scanned.", "anchors": ["src/cognitivefactory/interactive_clustering/clustering/dbscan.py:cluster"]}
{"id": "C57", "title": "C-DBScan can ignore CORE IDs and split dense neighbours", "statement": "There is a manager without any cannot-link and vectors for which two CORE IDs within eps of each other end up apart, one of them as an ignored point (min() over a dict picks the smallest ID, and the final size test compares with eps).", "quantifier": "existence", "why_tests_cant": "Shows a guarantee of DBSCAN that does not hold.", "anchors": ["src/cognitivefactory/interactive_clustering/clustering/dbscan.py:cluster"]}
{"id": "C58", "title": "C-DBScan's core clusters contain whole must-link components", "statement": "Each core cluster recorded by a call contains every ID with inferred MUST_LINK to its ID, only managed IDs, and no cannot-link.", "quantifier": "every reachable manager, vectors, eps, min_samples, set order", "why_tests_cant": "All data and merging histories.", "anchors": ["src/cognitivefactory/interactive_clustering/clustering/dbscan.py:cluster"]}
{"id": "C59", "title": "C-DBScan's labels are those of its recorded clusters", "statement": "After a call, an ID has a regular label iff it is in a core cluster or in a remaining local cluster that passes the size test; two such IDs share a label iff they are in the same cluster, where an ID in several core clusters belongs to the last one.", "quantifier": "every reachable manager, vectors, eps, min_samples, set order", "why_tests_cant": "All data; the removal of already clustered IDs and label numbering interact.", "anchors": ["src/cognitivefactory/interactive_clustering/clustering/dbscan.py:cluster"]}
{"id": "C60", "title": "Affinity propagation ignores cannot-links", "statement": "In both modes the result of a cluster call (error or labels) is the same for any two managers with the same managed IDs and the same must-link components: the cannot-links have no effect.", "quantifier": "every two reachable managers with equal IDs and components, all arguments, every message-passing outcome", "why_tests_cant": "All pairs of constraint histories and numeric outcomes.", "anchors": ["src/cognitivefactory/interactive_clustering/clustering/affinity_propagation.py:cluster", "src/cognitivefactory/interactive_clustering/clustering/affinity_propagation.py:_affinity_propagation_constrained"]}
{"id": "C61", "title": "Affinity propagation makes one cluster per exemplar (absolute mode)", "statement": "Unless the run is skipped: if the messages do not converge there is exactly one cluster; otherwise there are exactly as many clusters as exemplars, each exemplar closure is its own cluster, and every other closure joins an exemplar closure of greatest similarity (closest members of the two closures).", "quantifier": "every reachable manager, similarity matrix, message-passing outcome", "why_tests_cant": "All numeric outcomes.", "anchors": ["src/cognitivefactory/interactive_clustering/clustering/affinity_propagation.py:_affinity_propagation_constrained"]}
{"id": "C62", "title": "MPC-KMeans needs a recursion depth equal to the largest component", "statement": "The preprocessing succeeds iff every must-link component has at most as many IDs as nested calls fit on the stack; otherwise cluster raises RecursionError, whatever the vectors are.", "quantifier": "every reachable manager, recursion limit and set order", "why_tests_cant": "All component shapes and iteration orders: the depth of the depth-first search is the size of the component only because the must-link graph is already closed.", "anchors": ["src/cognitivefactory/interactive_clustering/clustering/mpckmeans.py:preprocess_constraints", "src/cognitivefactory/interactive_clustering/clustering/mpckmeans.py:_dfs", "src/cognitivefactory/interactive_clustering/clustering/mpckmeans.py:cluster"]}
{"id": "C63", "title": "MPC-KMeans returns exactly min(nb_clusters, n) clusters", "statement": "A call that succeeds was given as many vectors as there are managed IDs; its labels are exactly 0..min(nb_clusters, n)-1, all used, in order of first appearance over the sorted IDs; managed IDs without a vector get -1.", "quantifier": "every reachable manager, vectors, nb_clusters, numeric outcome and random choice", "why_tests_cant": "All numeric outcomes and random choices.", "anchors": ["src/cognitivefactory/interactive_clustering/clustering/mpckmeans.py:cluster"]}
{"id": "C64", "title": "When MPC-KMeans fails and when it cannot fail", "statement": "Fewer vectors than managed IDs raise IndexError; a single managed ID always raises AssertionError; vectors without two points apart raise AssertionError or IndexError; with at least ten clusters and IDs, two points apart and no more components than clusters (or pairwise distinct component means) the call succeeds.", "quantifier": "every reachable manager, vectors, nb_clusters, numeric outcome and random choice", "why_tests_cant": "All numeric outcomes and random choices.", "anchors": ["src/cognitivefactory/interactive_clustering/clustering/mpckmeans.py:cluster", "src/cognitivefactory/interactive_clustering/clustering/mpckmeans.py:_initialize_cluster_centers", "src/cognitivefactory/interactive_clustering/clustering/mpckmeans.py:_find_farthest_pairs_of_points"]}
{"id": "C65", "title": "MPC-KMeans applies the constraints to positions, not to IDs", "statement": "Two dictionaries with the same list of vectors give the same grouping of positions, whatever their IDs; so the same vectors in another insertion order can violate constraints that are honoured in the order of the manager.", "quantifier": "every reachable manager and vectors; a witness", "why_tests_cant": "All inputs; a mismatch that needs a particular insertion order.", "anchors": ["src/cognitivefactory/interactive_clustering/clustering/mpckmeans.py:cluster"]}
{"id": "C66", "title": "MPC-KMeans assigns greedily with penalties for exactly the inferred constraints", "statement": "In the assignment step every point, in the order of the shuffle, gets the first cluster with the smallest distance plus penalties; the penalties count exactly the inferred must-links to earlier points of other clusters and the inferred cannot-links to earlier points of the cluster.", "quantifier": "every reachable manager, vectors, centres, metric, shuffle and set order", "why_tests_cant": "All orders and label states.", "anchors": ["src/cognitivefactory/interactive_clustering/clustering/mpckmeans.py:_assign_clusters", "src/cognitivefactory/interactive_clustering/clustering/mpckmeans.py:_objective_fn"]}
{"id": "C67", "title": "A refused hierarchical call disturbs the earlier tree", "statement": "After a cluster call with refused arguments, compute_predicted_clusters of the earlier tree answers as before if the refused manager has the same IDs; otherwise it also gives clusters to every ID of the refused manager, although these IDs are in no node of the tree.", "quantifier": "every history of operations, every successful call, every refused call, every cut", "why_tests_cant": "All sequences of calls.", "anchors": ["src/cognitivefactory/interactive_clustering/clustering/hierarchical.py:cluster", "src/cognitivefactory/interactive_clustering/clustering/hierarchical.py:compute_predicted_clusters"]}
{"id": "C68", "title": "Complete constraints need (n - k) must-links and k(k-1)/2 cannot-links", "statement": "For n managed IDs in k components there are at least n - k added must-links between different IDs, whatever the history; complete constraints also have at least k(k-1)/2 added cannot-links, so any annotator who reaches completeness for a truth of k classes answered at least (n - k) + k(k-1)/2 questions. If every annotation was about a pair of unknown relation, the number of must-links is exactly n - k.", "quantifier": "every initial list of data IDs and every finite history of add_data_ID / delete_data_ID / add_constraint / delete_constraint calls (successful or raising), and every pair of managed IDs", "why_tests_cant": "A bound over all histories and all n.", "anchors": ["src/cognitivefactory/interactive_clustering/constraints/binary.py:add_constraint", "src/cognitivefactory/interactive_clustering/constraints/binary.py:check_completude_of_constraints", "src/cognitivefactory/interactive_clustering/constraints/binary.py:get_connected_components"]}
{"id": "C69", "title": "With complete constraints the clustering is forced", "statement": "When every pair is known, COP-KMeans and hierarchical clustering give two IDs the same label iff they are must-linked; the returned dictionary is the same for both algorithms and all parameters, vectors, random choices and numbers of clusters. C-DBScan never joins IDs that are not must-linked.", "quantifier": "every reachable complete manager, algorithm, parameters, vectors, nb_clusters", "why_tests_cant": "All inputs of three modules together.", "anchors": ["src/cognitivefactory/interactive_clustering/clustering/kmeans.py:cluster", "src/cognitivefactory/interactive_clustering/clustering/hierarchical.py:cluster", "src/cognitivefactory/interactive_clustering/constraints/binary.py:check_completude_of_constraints"]}
{"id": "C70", "title": "The interactive loop finds the truth", "statement": "The loop cluster - sample - annotate, with a truthful annotator, never raises, whatever algorithm, parameters, sampler and random choices are used in each iteration. From a new manager with n IDs, n(n-1)/2 iterations with an unrestricted sampler are enough for the next clustering to be exactly the true partition, with any parameters and any vectors.", "quantifier": "every truth, IDs, vectors, sequence of algorithms, samplers, parameters and random choices", "why_tests_cant": "Unbounded runs through four modules.", "anchors": ["src/cognitivefactory/interactive_clustering/clustering/kmeans.py:cluster", "src/cognitivefactory/interactive_clustering/clustering/hierarchical.py:cluster", "src/cognitivefactory/interactive_clustering/constraints/binary.py:add_constraint"]}
{"id": "C71", "title": "An empty sample certifies the clustering", "statement": "If the annotations so far agree with the truth and a sampler restricted to the same cluster finds no pair of unknown relation in the clustering just computed, then each cluster is inside one true class; if a sampler restricted to different clusters finds none, each true class is inside one cluster.", "quantifier": "every truth, reachable manager, algorithm, parameters, vectors, sampler", "why_tests_cant": "A semantic conclusion from an empty answer.", "anchors": ["src/cognitivefactory/interactive_clustering/clustering/kmeans.py:cluster", "src/cognitivefactory/interactive_clustering/clustering/hierarchical.py:cluster"]}
{"id": "C72", "title": "What the documented program does with any annotator", "statement": "The program of docs/usage.md (initial clustering; then sample 3 pairs, annotate skipping refused annotations, take the middle of the cluster range, COP-KMeans, until complete) ends after at most n(n-1)/2 iterations with complete constraints, even if the answers contradict each other, and returns exactly the must-link classes; with a truthful annotator and at least two true classes this is the truth. When all (two or more) IDs get must-linked it fails with ValueError, because the middle of the range is 1.", "quantifier": "every list of IDs, vectors, annotator (contradictory ones included), random choices, colouring orders", "why_tests_cant": "Unbounded runs through four modules, adversarial answers.", "anchors": ["src/cognitivefactory/interactive_clustering/constraints/binary.py:add_constraint", "src/cognitivefactory/interactive_clustering/constraints/binary.py:get_min_and_max_number_of_clusters", "src/cognitivefactory/interactive_clustering/constraints/binary.py:check_completude_of_constraints", "src/cognitivefactory/interactive_clustering/clustering/kmeans.py:cluster"]}
{"id": "C73", "title": "Sharing and in-place changes of dictionaries are invisible in the manager", "statement": "The manager stores one dict object for many IDs and changes other dict objects in place. For every history of calls its objects contain exactly what a manager whose dictionaries are values would contain, every call and getter returns or raises the same, a set object is never changed after its creation, entries and rows are never shared between IDs, and no iteration meets a dictionary that changed size.", "quantifier": "every initial list of data IDs and every finite history of add_data_ID / delete_data_ID / add_constraint / delete_constraint calls (successful or raising), and every pair of managed IDs", "why_tests_cant": "Aliasing bugs need particular histories; all histories.", "anchors": ["src/cognitivefactory/interactive_clustering/constraints/binary.py:add_data_ID", "src/cognitivefactory/interactive_clustering/constraints/binary.py:delete_data_ID", "src/cognitivefactory/interactive_clustering/constraints/binary.py:add_constraint", "src/cognitivefactory/interactive_clustering/constraints/binary.py:delete_constraint", "src/cognitivefactory/interactive_clustering/constraints/binary.py:_add_constraint_transitivity", "src/cognitivefactory/interactive_clustering/constraints/binary.py:_generate_constraints_transitivity"]}
{"id": "C74", "title": "Merge distances of the hierarchical clustering", "statement": "With single or complete linkage and a symmetric metric, whatever the constraints, clusters are merged at distances that never decrease. With single linkage the members of a cluster merged at distance d are joined by chains of must-links and distances of at most d, and clusters existing before that merge with no cannot-link between them are at least d apart; with complete linkage two of its members are must-linked or at distance at most d. With average linkage (which is the distance between centroids) and with ward linkage the merge distance can decrease.", "quantifier": "every reachable manager, vectors, symmetric metric, nb_clusters; existence for the last claim", "why_tests_cant": "All inputs, any number of merges.", "anchors": ["src/cognitivefactory/interactive_clustering/clustering/hierarchical.py:cluster", "src/cognitivefactory/interactive_clustering/clustering/hierarchical.py:_compute_distance", "src/cognitivefactory/interactive_clustering/clustering/hierarchical.py:_get_the_two_clostest_clusters"]}
{"id": "C75", "title": "The objective of COP-KMeans", "statement": "In exact arithmetic and without constraints, the sum of the squared distances between the IDs and the centroids of their clusters never grows from one pass to the next, and with a positive tolerance every run stops by itself after at most k^n + 1 passes (n IDs, k = min(nb_clusters, n)), so that a larger max_iteration changes nothing. With one single must-link constraint neither holds: there is a run that alternates for ever between two partitions, so that the result depends on the parity of max_iteration, and the sum grows in it.", "quantifier": "every reachable manager without constraints, IDs, vectors, nb_clusters, random choices, max_iteration; existence for the last claim", "why_tests_cant": "Unbounded numbers of passes; exact arithmetic.", "anchors": ["src/cognitivefactory/interactive_clustering/clustering/kmeans.py:cluster", "src/cognitivefactory/interactive_clustering/clustering/kmeans.py:_clustering_kmeans_model_COP", "src/cognitivefactory/interactive_clustering/clustering/kmeans.py:compute_centroids"]}
{"id": "C76", "title": "The messages of affinity propagation", "statement": "For at least two points one pass of the loop computes, in exact arithmetic, the damped responsibilities and availabilities of Frey and Dueck, and E marks the points whose self-availability plus self-responsibility is positive. The refinement replaces every exemplar by the member of its group to which the similarities of the group sum up to most. In exact arithmetic all assumptions that the other properties make of numpy hold.", "quantifier": "every similarity matrix, every state of the messages, every number of points from two on", "why_tests_cant": "All matrices and message states; the code computes maxima and sums with in-place tricks.", "anchors": ["src/cognitivefactory/interactive_clustering/clustering/affinity_propagation.py:_affinity_propagation_constrained"]}
{"id": "C77", "title": "Isolated closures and two closures in affinity propagation", "statement": "In absolute mode, in exact arithmetic: a must-link closure whose similarity to every other closure is below the preference is an exemplar after any number of passes, so a converged run has at least as many clusters as isolated closures. With exactly two closures, if every ID is more similar to itself than IDs of different closures are to each other, the clusters are exactly the two closures.", "quantifier": "every reachable manager, distance, vectors, random numbers, iteration limits", "why_tests_cant": "All vectors and unbounded numbers of passes.", "anchors": ["src/cognitivefactory/interactive_clustering/clustering/affinity_propagation.py:cluster", "src/cognitivefactory/interactive_clustering/clustering/affinity_propagation.py:_affinity_propagation_constrained"]}
{"id": "C78", "title": "Three closures in affinity propagation: the result depends on the noise", "statement": "In absolute mode, in exact arithmetic, for three must-link closures of which two are closest to each other: if the random noise makes the two similarities of that pair different, the closest pair is one cluster and the third closure the other; if they stay equal, all IDs are in one cluster. With absolute_must_links=False the messages can converge and put must-linked IDs into different clusters.", "quantifier": "every reachable manager with three components, distance, vectors, random numbers, iteration limits; existence for the last claim", "why_tests_cant": "All vectors; the outcome depends on noise of the size of rounding errors.", "anchors": ["src/cognitivefactory/interactive_clustering/clustering/affinity_propagation.py:cluster", "src/cognitivefactory/interactive_clustering/clustering/affinity_propagation.py:_affinity_propagation_constrained"]}
{"id": "C79", "title": "The metric and the penalties of MPC-KMeans", "statement": "In exact arithmetic: every metric of the loop has positive entries of at most N*10^9; no penalty is negative (the commented-out assertion of line 534 holds); a must-link costs nothing iff the vectors are equal, a cannot-link iff the vectors are as far apart as the farthest pair; the metric is N over the squared distances to the centres plus w times the squared distances of the violated must-links plus 2w times what the violated cannot-links lack to the farthest pair, with a lower bound of 10^-9; the logarithm of the determinant has no effect on the result; without constraints every point gets its first nearest centre, whatever the weight and the shuffle.", "quantifier": "every vectors, constraints, weight, random choices, number of passes", "why_tests_cant": "All data and unbounded numbers of passes.", "anchors": ["src/cognitivefactory/interactive_clustering/clustering/mpckmeans.py:_objective_fn", "src/cognitivefactory/interactive_clustering/clustering/mpckmeans.py:_update_metrics", "src/cognitivefactory/interactive_clustering/clustering/mpckmeans.py:_find_farthest_pairs_of_points", "src/cognitivefactory/interactive_clustering/clustering/mpckmeans.py:_assign_clusters"]}
{"id": "C80", "title": "The objective of MPC-KMeans without constraints", "statement": "In exact arithmetic and without constraints, the sum of the squared distances to the centres minus N times the logarithm of the determinant of the metric never grows from one pass to the next, repair of empty clusters included. It decreases unless the centres stay or every point coincides with its centre, and every run stops by itself after at most k^n + 2 passes (k = min(nb_clusters, n)): a larger max_iteration changes nothing.", "quantifier": "every reachable manager without constraints, vectors, weight, nb_clusters, random choices, max_iteration", "why_tests_cant": "Unbounded numbers of passes; exact arithmetic.", "anchors": ["src/cognitivefactory/interactive_clustering/clustering/mpckmeans.py:cluster", "src/cognitivefactory/interactive_clustering/clustering/mpckmeans.py:_assign_clusters", "src/cognitivefactory/interactive_clustering/clustering/mpckmeans.py:_get_cluster_centers", "src/cognitivefactory/interactive_clustering/clustering/mpckmeans.py:_update_metrics"]}
{"id": "C81", "title": "Which constraints MPC-KMeans can ignore", "statement": "In exact arithmetic: if the nearest centres violate no must-link between different vectors and violate cannot-links only between pairs as far apart as the farthest pair, the assignment keeps them for every weight; so there are a manager with one CANNOT_LINK and vectors for which both IDs end in the same cluster whatever the weight. Without cannot-links, if violating a must-link between different vectors costs more than the distance to any centre, the arg-min loop satisfies every must-link.", "quantifier": "every reachable manager, vectors, weight, shuffle, metric and centres of the loop; existence of the violation for all weights", "why_tests_cant": "All weights at once; all shuffles.", "anchors": ["src/cognitivefactory/interactive_clustering/clustering/mpckmeans.py:_assign_clusters", "src/cognitivefactory/interactive_clustering/clustering/mpckmeans.py:_objective_fn", "src/cognitivefactory/interactive_clustering/clustering/mpckmeans.py:cluster"]}
{"id": "C82", "title": "The exported dendrogram", "statement": "After a call of hierarchical clustering, to_dict of the root gives the tree of all stored clusters, each of them once, with their values; its leaves are the components of the constraints and its number of levels is the inverse depth of the root plus one, at most the number of components. It needs one nested call per level: with fewer it is a RecursionError, and for every n there are n unconstrained vectors whose tree has n levels. add_new_children concatenates the members of the old and new children, so that a leaf loses its own members; it fails only without any child, after the iteration was already changed; and adding any stored cluster that is not yet a child destroys the tree.", "quantifier": "every reachable manager, vectors, linkage, nb_clusters; every recursion limit; every number of vectors for the existence claim", "why_tests_cant": "Deep trees only appear with many points; all trees and limits.", "anchors": ["src/cognitivefactory/interactive_clustering/clustering/hierarchical.py:to_dict", "src/cognitivefactory/interactive_clustering/clustering/hierarchical.py:add_new_children", "src/cognitivefactory/interactive_clustering/clustering/hierarchical.py:cluster"]}
{"id": "C83", "title": "The clusters of C-DBScan compared with DBSCAN", "statement": "Two IDs of one regular cluster are always joined by a chain of managed IDs in which consecutive ones are within eps of each other or must-linked: no regular cluster bridges a gap. An ID of a regular cluster is within eps of a CORE ID, or must-linked to another ID, or SINGLE_CORE; so without constraints the noise of DBSCAN is ignored. Without any constraint the clusters are still not those of DBSCAN: a core point within eps of a core point of a regular cluster can be ignored, and a regular cluster can contain core points that are not density-connected.", "quantifier": "every reachable manager, vectors, metric, eps, min_samples and order of sets; existence for the last claims", "why_tests_cant": "All point sets; the test data have few points.", "anchors": ["src/cognitivefactory/interactive_clustering/clustering/dbscan.py:cluster"]}
{"id": "C84", "title": "C-DBScan does not depend on the order of sets", "statement": "Whatever the orders in which python lists the sets that the algorithm builds, two calls with the same arguments both raise the same error or both return, and then the returned dictionary, the labels, the local clusters and the counts are equal and the core clusters are the same sets under the same keys. The string \"NONE\" for unassigned IDs does not matter either, as long as it is no managed ID; with an ID of that name the clusters can be other ones.", "quantifier": "every reachable manager, vectors, metric, eps, min_samples, orders of sets; existence for the last claim", "why_tests_cant": "Set order of strings changes with the hash seed of the process; one test run sees one order.", "anchors": ["src/cognitivefactory/interactive_clustering/clustering/dbscan.py:cluster"]}
{"id": "C85", "title": "Only the vectors of managed IDs matter", "statement": "If two dictionaries of vectors have the same vectors for the managed IDs (and lack the same ones), whatever their order and whatever they have for other IDs, then sampling, COP-KMeans, hierarchical clustering, C-DBScan, spectral clustering and affinity propagation give the same result and leave the same object, or raise the same error. For MPC-KMeans this is false: the order of the dictionary can decide whether the constraints hold.", "quantifier": "every reachable manager, dictionaries, parameters, random choices; existence for the last claim", "why_tests_cant": "All dictionaries; tests build vectors in the order of the IDs.", "anchors": ["src/cognitivefactory/interactive_clustering/clustering/kmeans.py:cluster", "src/cognitivefactory/interactive_clustering/clustering/hierarchical.py:cluster", "src/cognitivefactory/interactive_clustering/clustering/dbscan.py:cluster", "src/cognitivefactory/interactive_clustering/clustering/spectral.py:cluster", "src/cognitivefactory/interactive_clustering/clustering/affinity_propagation.py:cluster", "src/cognitivefactory/interactive_clustering/sampling/clusters_based.py:sample", "src/cognitivefactory/interactive_clustering/clustering/mpckmeans.py:cluster"]}
{"id": "C86", "title": "The names of the IDs do not matter", "statement": "Give every ID another name, different IDs different names. Then each call of the constraints manager in any history returns the same or raises the same error, and all answers are the renamed ones; the lists of connected components are the same up to the order inside them, and with the same order if nothing was deleted or the names keep their order. COP-KMeans, hierarchical clustering, spectral clustering, affinity propagation and MPC-KMeans raise the same error or give the same groups of IDs, and the same labels if the names keep their order. If the names keep their order, sampling gives the same pairs and C-DBScan the same object, whatever the orders of sets; if not, the groups of C-DBScan can differ.", "quantifier": "every history, injective renaming, vectors, parameters, random choices (that commute with the renaming); existence for the last claim", "why_tests_cant": "All histories and all names; tests use one naming scheme.", "anchors": ["src/cognitivefactory/interactive_clustering/constraints/binary.py:get_connected_components", "src/cognitivefactory/interactive_clustering/constraints/binary.py:add_constraint", "src/cognitivefactory/interactive_clustering/clustering/kmeans.py:cluster", "src/cognitivefactory/interactive_clustering/clustering/hierarchical.py:cluster", "src/cognitivefactory/interactive_clustering/clustering/dbscan.py:cluster", "src/cognitivefactory/interactive_clustering/clustering/spectral.py:cluster", "src/cognitivefactory/interactive_clustering/clustering/affinity_propagation.py:cluster", "src/cognitivefactory/interactive_clustering/sampling/clusters_based.py:sample", "src/cognitivefactory/interactive_clustering/clustering/mpckmeans.py:cluster"]}
{"id": "C87", "title": "Spectral clustering with an ideal solver", "statement": "Let scikit-learn's solver work exactly: the embedding is a frame, orthonormal with respect to the degrees, with the least energy, and the labels are optimal for k-means on its rows. If the managed IDs fall into as many classes joined by chains of similar IDs (must-linked, or without constraint and with a kernel other than 0) as clusters are asked for, the clusters are those classes, whatever the vectors. So with complete constraints and as many clusters as must-link classes, the clusters are the must-link classes. But in general cannot-links are not honoured even by an ideal solver: there are six IDs with must-links and cannot-links and vectors for which every ideal solver puts both cannot-linked pairs together.", "quantifier": "every reachable manager, vectors, kernel, ideal solver; for the last claim every ideal solver and a one-parameter family of vectors", "why_tests_cant": "All ideal solvers, also with ties; floating point tests see one solver.", "anchors": ["src/cognitivefactory/interactive_clustering/clustering/spectral.py:cluster"]}
{"id": "C88", "title": "The number of clusters of COP-KMeans", "statement": "Without cannot-links COP-KMeans returns at least one and never more clusters than asked for; without any constraint IDs with equal vectors share a cluster, so fewer may be returned. With cannot-links the number is not controlled: for every N there are N + 2 IDs and cannot-links that two clusters satisfy, such that a call with nb_clusters = 2 returns N + 2 clusters, one for each ID, for all vectors that are different, every number of iterations and every initialisation that takes the two IDs linked to all others as centroids.", "quantifier": "every reachable manager, vectors, parameters; every N for the last claim", "why_tests_cant": "Unbounded family; all vectors; tests look at few IDs.", "anchors": ["src/cognitivefactory/interactive_clustering/clustering/kmeans.py:cluster", "src/cognitivefactory/interactive_clustering/clustering/kmeans.py:_clustering_kmeans_model_COP"]}
{"id": "C89", "title": "Only the inferred constraints matter", "statement": "Let two histories of annotation end in managers with the same managed IDs and the same inferred constraints, whatever was added, in which order and how often it was redone; a manager and its saved and loaded copy are such managers. Then the components are the same up to the order inside them, the verdict on completeness is the same, and COP-KMeans, C-DBScan, spectral clustering, MPC-KMeans, affinity propagation and hierarchical clustering with single or complete linkage give the same result; hierarchical clustering with average or ward linkage too if sums do not depend on the order of the summands. Sampling gives the same pairs unless it leaves out added but not inferred constraints; then it can differ. With sums that are rounded, average linkage can give other groups after saving and loading.", "quantifier": "every pair of reachable managers, vectors, parameters, random choices; existence for the two exceptions", "why_tests_cant": "All pairs of histories; tests build each manager in one way.", "anchors": ["src/cognitivefactory/interactive_clustering/constraints/binary.py:get_inferred_constraint", "src/cognitivefactory/interactive_clustering/constraints/binary.py:get_connected_components", "src/cognitivefactory/interactive_clustering/constraints/binary.py:to_json", "src/cognitivefactory/interactive_clustering/clustering/kmeans.py:cluster", "src/cognitivefactory/interactive_clustering/clustering/hierarchical.py:cluster", "src/cognitivefactory/interactive_clustering/clustering/dbscan.py:cluster", "src/cognitivefactory/interactive_clustering/clustering/spectral.py:cluster", "src/cognitivefactory/interactive_clustering/clustering/affinity_propagation.py:cluster", "src/cognitivefactory/interactive_clustering/sampling/clusters_based.py:sample", "src/cognitivefactory/interactive_clustering/clustering/mpckmeans.py:cluster"]}
{"id": "C90", "title": "Moving and scaling the vectors", "statement": "Let the same IDs have other vectors, perhaps of another kind. Sampling and hierarchical clustering with single or complete linkage give the same result if the order of the distances is the same; for average linkage this is false. Spectral clustering and affinity propagation give the same result if the kernel values and distances are the same, C-DBScan if the same pairs are within eps. In exact arithmetic: if a map multiplies all distances by the same positive number (a motion, a mirror image, another unit of length), hierarchical clustering with every linkage, sampling, and COP-KMeans with the tolerance in the new unit give the same clusters (for KMeans with the images of the centroids); C-DBScan gives the same clusters after motions and mirror images, but not in another unit of length, because the number of points of a local cluster is compared with eps.", "quantifier": "every reachable manager, vectors, normed spaces, maps, parameters, random choices; existence for the two negative claims", "why_tests_cant": "All maps of all normed spaces; tests look at one representation.", "anchors": ["src/cognitivefactory/interactive_clustering/clustering/kmeans.py:cluster", "src/cognitivefactory/interactive_clustering/clustering/kmeans.py:_clustering_kmeans_model_COP", "src/cognitivefactory/interactive_clustering/clustering/hierarchical.py:cluster", "src/cognitivefactory/interactive_clustering/clustering/dbscan.py:cluster", "src/cognitivefactory/interactive_clustering/clustering/spectral.py:cluster", "src/cognitivefactory/interactive_clustering/clustering/affinity_propagation.py:cluster", "src/cognitivefactory/interactive_clustering/sampling/clusters_based.py:sample"]}
{"id": "C91", "title": "How many questions a session asks", "statement": "Let an annotator who knows n IDs in k true classes answer the sampled pairs. If inferred constraints are left out of the samples, the constraints are complete after at most (n - k) + (number of pairs of different classes) rounds, less what is already known; if one pair is asked at a time this is also a bound for the number of questions, with every restriction by clusters or distances. No session, whatever its samplers and sizes of batches, completes the constraints of a new manager with fewer than (n - k) + k(k-1)/2 questions. If the vectors show the classes (pairs of one class are nearer than pairs of different classes), asking for the closest pair needs exactly the least number and asking for the farthest pair exactly the largest; such vectors exist for all IDs and classes, so both bounds are attained.", "quantifier": "every list of IDs, true classes, rounds, samplers, vectors, random choices", "why_tests_cant": "The bounds concern all sessions; tests run one.", "anchors": ["src/cognitivefactory/interactive_clustering/sampling/clusters_based.py:sample", "src/cognitivefactory/interactive_clustering/constraints/binary.py:add_constraint", "src/cognitivefactory/interactive_clustering/constraints/binary.py:get_inferred_constraint"]}
{"id": "C92", "title": "How a conflict can be repaired", "statement": "When a constraint between two different IDs is refused, deleting all annotations between reported IDs is enough: every deletion works, the constraint is then accepted, and no inferred constraint between IDs outside the report changes. Deleting only annotations that do not join two reported IDs never helps: the constraint is refused again with the same report. After any deletions a constraint is accepted iff the remaining annotations do not entail its opposite (no chain of must-links left for a CANNOT_LINK, no cannot-link between the remaining classes for a MUST_LINK). A CANNOT_LINK of an ID with itself is refused whatever is deleted. A new constraint that is accepted and deleted again leaves all answers as before.", "quantifier": "every reachable manager, pair, type, list of deleted pairs", "why_tests_cant": "All sets of deletions on all managers; tests try one.", "anchors": ["src/cognitivefactory/interactive_clustering/constraints/binary.py:get_list_of_involved_data_IDs_in_a_constraint_conflict", "src/cognitivefactory/interactive_clustering/constraints/binary.py:delete_constraint", "src/cognitivefactory/interactive_clustering/constraints/binary.py:add_constraint"]}
{"id": "C93", "title": "The order of the IDs", "statement": "Two managers with the same IDs in different orders and the same inferred constraints: hierarchical clustering gives the same label dictionary, the same inner nodes and the same later cuts, provided every merge was strictly the best pair (for linkages single and complete it is enough that different pairs of IDs have different distances). Sampling the closest or farthest pairs gives the same list if no two candidates have the same distance. With ties both depend on the order, C-DBScan depends on it even without constraints, and COP-KMeans depends on it even when it starts from the same centroids: each shown by a concrete case with a different grouping.", "quantifier": "every pair of reachable managers with the same IDs and inferred constraints, vectors, linkage, number of clusters, number of pairs, cut", "why_tests_cant": "All orders of all ID lists; tests use one order.", "anchors": ["src/cognitivefactory/interactive_clustering/clustering/hierarchical.py:cluster", "src/cognitivefactory/interactive_clustering/clustering/hierarchical.py:_get_the_two_clostest_clusters", "src/cognitivefactory/interactive_clustering/clustering/hierarchical.py:compute_predicted_clusters", "src/cognitivefactory/interactive_clustering/sampling/clusters_based.py:sample", "src/cognitivefactory/interactive_clustering/clustering/dbscan.py:cluster", "src/cognitivefactory/interactive_clustering/clustering/kmeans.py:_clustering_kmeans_model_COP"]}
{"id": "C94", "title": "Later cuts of the hierarchical tree", "statement": "After a successful cluster call of hierarchical clustering, compute_predicted_clusters(k, by=\"size\") with k at least 2 returns exactly the label dictionary that a new cluster call with nb_clusters=k on the same manager and vectors returns, and that call leaves the object in the same state. Every cut with k at least 2, by size or by iteration, respects all inferred constraints. A cut with k at most 1 succeeds and puts every ID in cluster 0, so it respects the constraints exactly when no cannot-link is inferred.", "quantifier": "every reachable manager, every object state before the call, every environment (distances, linkage), every number of clusters asked for and every later k", "why_tests_cant": "All trees and all k; the tests cut one tree at a few sizes.", "anchors": ["src/cognitivefactory/interactive_clustering/clustering/hierarchical.py:cluster", "src/cognitivefactory/interactive_clustering/clustering/hierarchical.py:compute_predicted_clusters"]}
{"id": "C95", "title": "The stored centroids of COP-KMeans", "statement": "After a successful call of COP-KMeans, self.centroids has one entry for each returned cluster and each entry is the mean of the vectors of the IDs of that cluster, under an injective map from the returned labels to the keys of self.centroids. That map is not always the identity: a concrete run stores under a label the mean of another returned cluster, and a concrete run returns a label that is not a key of self.centroids.", "quantifier": "every reachable manager, vectors, environment (metric, mean, shuffle, set order, tolerance), number of clusters and number of iterations", "why_tests_cant": "All inputs; the tests compare returned labels only.", "anchors": ["src/cognitivefactory/interactive_clustering/clustering/kmeans.py:cluster", "src/cognitivefactory/interactive_clustering/clustering/kmeans.py:_clustering_kmeans_model_COP", "src/cognitivefactory/interactive_clustering/clustering/kmeans.py:compute_centroids"]}
{"id": "C96", "title": "Random choices are uniform", "statement": "With python's random.sample and random.shuffle modelled down to the numbers that randbelow returns: whatever is drawn, sample returns k elements from different positions and shuffle a permutation. Every ordered choice of k elements comes from exactly one list of draws, and every order of a shuffled list from exactly one. So random sampling of pairs returns each ordered choice of min(n, N) of the N eligible pairs for exactly one list of draws, and each eligible pair is in the result for a part min(n, N) / N of all draws. The initial centroids of COP-KMeans are the vectors of nb different IDs, and each ordered choice of nb of the N IDs comes from exactly (N - nb)! of the N! lists of draws.", "quantifier": "every reachable manager, sampler without distance restriction, number of pairs, clustering and vectors, either branch of random.sample, every list of draws within the bounds", "why_tests_cant": "A statement about all possible draws; a test sees one seed.", "anchors": ["src/cognitivefactory/interactive_clustering/sampling/clusters_based.py:sample", "src/cognitivefactory/interactive_clustering/clustering/kmeans.py:initialize_centroids"]}
{"id": "C97", "title": "Frequencies as floating-point numbers", "statement": "With the division rounded as binary64 does it (to nearest, ties to even): each frequency is the float nearest to size / n, positive and at most 1. For fewer than 2^52 data, frequency times n is within 1/2 of the size of the cluster, so the size can be recovered; two frequencies are equal exactly if the sizes are, and ordered as the sizes are; a frequency is 1 exactly if all data are in that cluster. The frequencies sum to 1 within 2^-53, and added up one by one in floats within (1 + 2^-53)^(k+1) - 1 for k clusters. They need not sum to exactly 1.", "quantifier": "every clustering dict (below 2^52 data for the statements about sizes)", "why_tests_cant": "Rounding errors over all sizes; a test compares a few decimals.", "anchors": ["src/cognitivefactory/interactive_clustering/utils/frequency.py:compute_clusters_frequency"]}
{"id": "C98", "title": "The saved file, byte by byte", "statement": "The text that to_json writes consists of line feeds and printable ASCII characters, whatever the IDs are. So saving never raises an encoding error (lone surrogates included), and the bytes are the same for every encoding that contains ASCII. A file written with one such encoding and either line end, and read with another such encoding, gives back the manager. A file cut at any byte, also between carriage return and line feed, is refused with JSONDecodeError.", "quantifier": "every manager with IDs of arbitrary code points, UTF-8, Latin-1 and every other encoding that contains ASCII on either side, both line separators, every cut", "why_tests_cant": "All IDs, encodings and cuts; a test writes one file on one system.", "anchors": ["src/cognitivefactory/interactive_clustering/constraints/binary.py:to_json", "src/cognitivefactory/interactive_clustering/constraints/binary.py:load_constraints_manager_from_json"]}
{"id": "C99", "title": "Distances as floating-point numbers", "statement": "For vectors with one entry, with scikit-learn's formula (-2xy + x^2 + y^2, at least 0, square root) and each operation rounded to binary64: the computed distance is a float, not negative, 0 from a vector to itself, and within 2^-25 (|x| + |y|) of the true distance. Multiplying by a power of two multiplies it exactly, so hierarchical clustering gives the same groups then. It is not symmetric; vectors that are any power of two apart can have computed distance 0; the triangle inequality can fail; and moving all vectors by the same amount can change the groups although the moved vectors are exact.", "quantifier": "all rational x and y; every reachable manager, linkage, vectors with one entry and power of two", "why_tests_cant": "Error bounds over all inputs; a test compares with a tolerance.", "anchors": ["src/cognitivefactory/interactive_clustering/clustering/hierarchical.py:_compute_distance", "src/cognitivefactory/interactive_clustering/clustering/hierarchical.py:cluster"]}
{"id": "C100", "title": "Which files can be loaded, and what they mean", "statement": "load_constraints_manager_from_json accepts a text exactly if it decodes to a JSON object with a list of string IDs and a list of entries, each entry naming two listed IDs and one of the two constraint types, such that some assignment of clusters satisfies all the constraints together. The manager then holds the listed IDs in order of first occurrence, exactly the listed constraints besides the self-constraints, and infers exactly their closure, so the order, direction and repetition of the entries do not matter. A contradictory file is refused with the conflict error; every refusal is a ValueError, KeyError or TypeError.", "quantifier": "all texts (also not written by to_json), all IDs and lists of constraints", "why_tests_cant": "Files edited by hand or written by other programs are never in a test suite.", "anchors": ["src/cognitivefactory/interactive_clustering/constraints/binary.py:load_constraints_manager_from_json", "src/cognitivefactory/interactive_clustering/constraints/binary.py:add_constraint"]}
{"id": "C101", "title": "Python's generator, and what random_seed determines", "statement": "With python's generator (Mersenne Twister, seeding by an integer or by the operating system, getrandbits, the rejection loop of randbelow, both methods of random.sample, random.shuffle) in place of arbitrary draws: its numbers keep their bounds for ever, and sampling and COP-KMeans return a result that is admissible in C23-C34 (or draw for ever). The result of sample and of COP-KMeans never depends on the state of the generator of the process: a repeated call with a seed returns the same, and without a seed only the numbers of the operating system count, so seeding random in the calling program has no effect. A call leaves the generator of the process alone or replaces its state by one that does not depend on it. With a seed, the selected positions in the list of candidates depend on nothing but the seed, the number of candidates and the number to select, and the positions of the initial centroids on nothing but the seed and the number of IDs.", "quantifier": "all seeds, operating-system numbers, states of the generator, generators (for all but the bounds), managers, clusterings, vectors, options", "why_tests_cant": "A test fixes one seed and looks at one result; what the result does not depend on cannot be observed.", "anchors": ["src/cognitivefactory/interactive_clustering/sampling/clusters_based.py:sample", "src/cognitivefactory/interactive_clustering/clustering/kmeans.py:cluster", "src/cognitivefactory/interactive_clustering/clustering/kmeans.py:initialize_centroids"]}
{"id": "C102", "title": "The TF-IDF vectors, and the documented program from the texts", "statement": "vectorize with tfidf (words of at least two characters, 1- to 3-grams, min_df=2, smoothed idf, euclidean norm; real arithmetic) succeeds exactly if two of the texts have a word in common and raises ValueError otherwise. The terms of a text are the sequences of one to three of its words that follow each other, joined by spaces, counted once per place. Each text gets one row without negative entries, of norm 1 if the text has a word in common with another text and zero otherwise. Two rows have a distance below sqrt 2 if their texts have a word in common, exactly sqrt 2 if they have none but each has one with some other text, 1 if exactly one of them has none with any other text, and 0 if neither has. Rows are equal exactly if the terms occurring in two texts or more occur in both in the same proportions. Rows do not depend on the order of the texts, but on the other texts. The documented program, run from preprocessed texts, stops with ValueError if no two texts have a word in common and otherwise behaves as in C72; with truthful answers it ends with exactly the classes. On the texts of the documentation itself all vectors are equal.", "quantifier": "all lists of texts, all lower-casing functions and classes of word characters (space not among them), all annotators, IDs and random choices", "why_tests_cant": "The existing test only checks that three texts get matrices.", "anchors": ["src/cognitivefactory/interactive_clustering/utils/vectorization.py:vectorize", "src/cognitivefactory/interactive_clustering/utils/preprocessing.py:preprocess"]}
{"id": "C103", "title": "When C-DBScan keeps must-linked IDs together", "statement": "A group of at least two must-linked IDs is exactly one regular cluster of C-DBScan if no ID of the group and no other managed ID are within eps of each other; this holds for any radius, min_samples, order of the IDs and order of sets, and also if \"NONE\" is one of the IDs. If any two IDs that are not must-linked are further apart than eps, two IDs have the same label exactly if they are must-linked. Without isolation it fails: two must-linked IDs with the same vector, both CORE, with no cannot-link at all, can both be ignored, with different labels.", "quantifier": "all reachable managers, vectors, metrics (not necessarily symmetric), radii, min_samples, set orders", "why_tests_cant": "Tests run one data set; the guarantee needs the assignments of the merge loop for every order of the IDs.", "anchors": ["src/cognitivefactory/interactive_clustering/clustering/dbscan.py:cluster"]}
{"id": "C104", "title": "Hierarchical clustering finds classes that are far apart", "statement": "If the constraints agree with some classes of the IDs and the linkage of two groups inside one class is always smaller than that of two groups in two classes, then the cut by iteration into as many clusters as there are classes gives exactly the classes, and so does cluster() with that number if any two classes together have more IDs than any class. The condition on the linkage holds for single and complete linkage if every distance inside a class is smaller than every distance between classes; in exact arithmetic for average linkage if distances between classes are more than three times the distances inside, and for ward linkage if they are more than half the class size times the distances inside. Both restrictions matter: with classes of 3, 1 and 1 IDs cluster(3) does not give the classes, and ward linkage fails on classes that single linkage would find.", "quantifier": "all reachable managers, classes, vectors, metrics; all normed spaces for average and ward", "why_tests_cant": "Tests run one data set; the guarantee needs an invariant of the merging and of the cut for every data set.", "anchors": ["src/cognitivefactory/interactive_clustering/clustering/hierarchical.py:cluster", "src/cognitivefactory/interactive_clustering/clustering/hierarchical.py:compute_predicted_clusters"]}
{"id": "C105", "title": "COP-KMeans finds classes that are far apart from initial centroids in different classes", "statement": "If the constraints agree with some classes of the IDs, every ID is closer to the vectors and means of its class than to those of other classes, and the initial centroids are vectors of IDs of different classes, then cluster() with the number of classes gives exactly the classes, after any number of iterations, for any order of sets. The condition on the centers holds in exact arithmetic, in any normed space, if the distances between classes are more than twice those inside. The condition on the initial centroids matters: with two of them in one class, the result may split that class and join two others, however far apart the classes are.", "quantifier": "all reachable managers, classes, vectors, metrics, means, shuffles, set orders and numbers of iterations", "why_tests_cant": "Tests run one data set; the guarantee needs an invariant over all passes and all assignments inside a pass.", "anchors": ["src/cognitivefactory/interactive_clustering/clustering/kmeans.py:cluster", "src/cognitivefactory/interactive_clustering/clustering/kmeans.py:initialize_centroids"]}
{"id": "C106", "title": "Sharing and in-place changes of lists are invisible in C-DBScan", "statement": "A run of C-DBScan in which lists are objects that can have several names and are changed in place raises or returns exactly as the run in which lists are values, for every manager, vectors and parameters, and whatever lists exist before. After a call, no list object is stored twice, all stored lists are new, no address dangles, and every list that existed before has its old content; so what a caller kept from one call is never changed by a later call.", "quantifier": "all managers, vectors, parameters, metrics, orders of sets, and existing list objects", "why_tests_cant": "Aliasing bugs show only for inputs where a shared list is later changed; tests compare the outputs of a few runs.", "anchors": ["src/cognitivefactory/interactive_clustering/clustering/dbscan.py:cluster"]}
{"id": "C107", "title": "Correct annotations and correct clusterings", "statement": "With single linkage, the cut by iteration into as many clusters as there are classes gives the classes as soon as they agree with the constraints and, inside every class, one goes from any ID to any other by steps that are must-links or shorter than every distance between two IDs of different classes that are not cannot-linked (`cluster` too when any two classes together have more IDs than any class). Without cannot-links and ties this condition is also necessary, so annotations that agree with the classes never spoil a correct cut by iteration of single linkage. For complete, average and ward linkage, for `cluster` with single linkage, for COP-KMeans and for C-DBScan there are data on which the clustering without constraints is exactly the classes and is wrong after one correct annotation.", "quantifier": "all managers, vectors, symmetric metrics, classes and batches of correct annotations", "why_tests_cant": "It is usually taken for granted that more correct annotations give better clusterings; tests check the clustering for fixed constraints only.", "anchors": ["src/cognitivefactory/interactive_clustering/clustering/hierarchical.py:cluster", "src/cognitivefactory/interactive_clustering/clustering/hierarchical.py:_compute_distance", "src/cognitivefactory/interactive_clustering/clustering/hierarchical.py:compute_predicted_clusters", "src/cognitivefactory/interactive_clustering/clustering/kmeans.py:_clustering_kmeans_model_COP", "src/cognitivefactory/interactive_clustering/clustering/dbscan.py:cluster"]}
{"id": "C108", "title": "Which annotation mistakes are noticed", "statement": "Adding a list of annotations about managed IDs is refused iff no labelling fits the constraints already there and the whole list, so the order does not matter, neither for being refused nor for what is known in the end. A single mistake in a correct list is noticed iff the right answer is inferred from the other annotations. When one pair of unknown relation is asked at a time, any answers whatever are accepted up to complete constraints, so no mistake is ever noticed; with two pairs per batch one can be. A correct list of least size that completes the constraints notices no single mistake. A correct list from scratch that completes the constraints and notices every single mistake has at least (number of IDs that are not alone in their class) + k(k-1) annotations for k classes, and for any IDs and classes there is such a list with exactly that many.", "quantifier": "all reachable managers, lists of annotations, labellings, annotators, sessions of one question per round", "why_tests_cant": "Whether a mistake is noticed depends on all the other annotations; the bound quantifies over all lists of annotations.", "anchors": ["src/cognitivefactory/interactive_clustering/constraints/binary.py:add_constraint", "src/cognitivefactory/interactive_clustering/constraints/binary.py:get_inferred_constraint", "src/cognitivefactory/interactive_clustering/sampling/clusters_based.py:sample"]}
{"id": "C109", "title": "Sharing in the hierarchical clustering is invisible, except through exported dictionaries", "statement": "In every sequence of calls of cluster, compute_predicted_clusters and to_dict, a hierarchical clustering whose clusters and lists are objects that can have several names returns the same results as one whose clusters and lists are values, whatever objects the program has. Different IDs are different objects with different lists of members, and nothing that existed before changes. The dictionaries of to_dict contain the lists of the clusters themselves: when a client changes one, all later calls behave as if the members of that cluster, and nothing else, had been changed, and labels can change. Lists that are older than the last successful call of cluster do not matter. The copy of the list of current clusters in the last merge is needed: removing the elements of a list while going through it leaves every second one.", "quantifier": "all sequences of calls with any environments, managers, vectors and parameters, any existing objects, any changes of a list by the client", "why_tests_cant": "Whether two names share a list shows only when one of them is changed; the tests compare the results of single calls and never change what they got.", "anchors": ["src/cognitivefactory/interactive_clustering/clustering/hierarchical.py:cluster", "src/cognitivefactory/interactive_clustering/clustering/hierarchical.py:compute_predicted_clusters", "src/cognitivefactory/interactive_clustering/clustering/hierarchical.py:to_dict"]}
{"id": "C110", "title": "When C-DBScan finds classes that the radius separates", "statement": "If the constraints agree with some classes of the IDs and two IDs are within eps exactly when they are in one class, then two IDs have the same label in the result of C-DBScan exactly when their class has at least min_samples IDs or they are must-linked. So the clusters are the classes exactly when every class has min_samples IDs or is one must-link group, whatever the order of the IDs, the order of sets and the test of line 525; no correct annotation does harm and none is needed if all classes have min_samples IDs. An ID that is not alone in its class is in a regular cluster exactly when its class has min_samples IDs or it is must-linked to another. It is not enough that classes are far apart and density-connected: an ID may be ignored although DBSCAN has it in a cluster.", "quantifier": "all reachable managers, classes, vectors, metrics, eps, min_samples, set orders", "why_tests_cant": "Tests run one data set; the exact result needs an invariant of the local clusters, of the assignments during the merge and of the growth.", "anchors": ["src/cognitivefactory/interactive_clustering/clustering/dbscan.py:cluster"]}
{"id": "C111", "title": "Small errors of the distances change nothing when decisions win by a margin", "statement": "If the distances used by the package are off by at most epsilon: every merge of the hierarchical clustering is at most 2 epsilon farther apart than the closest pair without a cannot-link that existed, and no pair returned by the sampling is more than 2 epsilon worse than one left out. If each merge of the exact tree wins by more than 2 epsilon, the same tree and labels result (any linkage); for single and complete linkage it is enough that distances of different pairs differ by more than 2 epsilon, and for ward linkage the errors grow at most by half the number of IDs. Sampled pairs are the same and in the same order if the distances of eligible pairs differ by more than 2 epsilon, and C-DBScan is the same if no distance is within epsilon of eps. In binary64 with vectors of one coordinate up to B, epsilon is B/2^24. A margin of exactly 2 epsilon is not enough.", "quantifier": "all reachable managers, vectors, distances in any ordered group, epsilon, numbers of clusters or pairs", "why_tests_cant": "Tests compare rounded results with rounded results; that rounding cannot matter needs a comparison of two whole runs, merge by merge.", "anchors": ["src/cognitivefactory/interactive_clustering/clustering/hierarchical.py:cluster", "src/cognitivefactory/interactive_clustering/clustering/hierarchical.py:_get_the_two_clostest_clusters", "src/cognitivefactory/interactive_clustering/clustering/dbscan.py:cluster", "src/cognitivefactory/interactive_clustering/sampling/clusters_based.py:sample"]}
{"id": "C112", "title": "IDs that end with NUL characters in MPC-KMeans", "statement": "MPC-KMeans reads the keys of its result from a numpy string array, which drops the NUL characters at the end of a string. Failures do not depend on this, and neither does the result if no key of the vectors ends with NUL. Otherwise the result labels the managed IDs and the shortened keys; a shortened key has the cluster of the last key that is shortened to it; a managed ID that ends with NUL has label -1 always, as if it had no vector, so two of them have one label even if they are cannot-linked and one of them never has the label of an ID without NUL, even if they are must-linked. The result labels something that is not managed exactly when a managed ID ends with NUL and the rest of it is not managed.", "quantifier": "all reachable managers, IDs, vectors, parameters, arithmetic, random choices and set orders; any way to store names", "why_tests_cant": "No test has an ID with a NUL character, and the effect depends on which keys become equal.", "anchors": ["src/cognitivefactory/interactive_clustering/clustering/mpckmeans.py:cluster"]}
{"id": "C113", "title": "Checking a clustering by questions takes as few questions as any way of finding it", "statement": "Take a clustering with k clusters that satisfies the constraints, c must-link groups, and rounds of one question: at least c-k with the restriction to one cluster, then at least k(k-1)/2 with the restriction to different clusters, without inferred pairs. The clustering is the true partition exactly when every answer is the one it predicts, and otherwise a different answer comes among the first c-k+k(k-1)/2 questions. If it is right, the questions in one cluster are all answered MUST_LINK, each joins two groups, and they end when the groups are the classes; from a new manager with n IDs exactly n-k+k(k-1)/2 questions are asked and the constraints are then complete. With fewer questions, asked in any way, another partition of the IDs has the same questions and the same answers.", "quantifier": "all ID types, reachable managers, clusterings, true partitions, distances and random choices of the sampler; any number of rounds", "why_tests_cant": "Tests sample once from fixed clusterings; that a sequence of samples decides a clustering, and that none shorter does, is a statement about all partitions.", "anchors": ["src/cognitivefactory/interactive_clustering/sampling/clusters_based.py:sample", "src/cognitivefactory/interactive_clustering/constraints/binary.py:add_constraint", "src/cognitivefactory/interactive_clustering/constraints/binary.py:get_inferred_constraint", "src/cognitivefactory/interactive_clustering/constraints/binary.py:check_completude_of_constraints"]}
{"id": "C114", "title": "How many questions the interactive loop asks", "statement": "The loop (cluster, sample, annotate) from a new manager with n IDs in k true classes: if samples leave out inferred pairs and are not restricted to clusters, n-k plus the number of pairs of different classes iterations complete the constraints and clustering then returns the classes, whatever the algorithms, their parameters and the vectors; no loop completes them with fewer than n-k+k(k-1)/2 questions. If the algorithms find the classes whatever correct annotations they get (hierarchical clustering when its linkage separates the classes and no class is as large as two others together; COP-KMeans when centers separate them and the initial centroids are in different classes), then all clusterings of the loop are the classes, and n-k iterations with one question in one cluster, all answered MUST_LINK, and k(k-1)/2 with one question in different clusters, all answered CANNOT_LINK, complete the constraints.", "quantifier": "all ID types, IDs, true classes, vectors, algorithms and parameters of every iteration, samplers and random choices", "why_tests_cant": "Tests run no loop; the bounds concern all loops.", "anchors": ["src/cognitivefactory/interactive_clustering/sampling/clusters_based.py:sample", "src/cognitivefactory/interactive_clustering/constraints/binary.py:add_constraint", "src/cognitivefactory/interactive_clustering/constraints/binary.py:check_completude_of_constraints", "src/cognitivefactory/interactive_clustering/clustering/kmeans.py:cluster", "src/cognitivefactory/interactive_clustering/clustering/hierarchical.py:cluster"]}
{"id": "C115", "title": "The random numbers come from the Mersenne Twister, from every seed", "statement": "The 32-bit words that python's generator gives after random.seed(z), |z| < 2^19968, as many as are drawn, are the tempered words of the MT19937 recurrence over the 624 words that the loops of init_by_array compute from the digits of |z| in base 2^32. getrandbits(32n+r) takes n+1 of them, the lowest digits first and the upper r bits of the last one. So a random_seed and its negative make the samplers and COP-KMeans do the same.", "quantifier": "all integers |z| < 2^19968, all numbers of draws, all states of 624 words and positions, all keys of 1 to 624 words, all calls of the samplers and of COP-KMeans", "why_tests_cant": "Tests compare results for single seeds; the stream behind a call can be arbitrarily long.", "anchors": ["src/cognitivefactory/interactive_clustering/sampling/clusters_based.py:sample", "src/cognitivefactory/interactive_clustering/clustering/kmeans.py:initialize_centroids"]}
{"id": "C116", "title": "How many wrong annotations are noticed, and how many can be corrected", "statement": "A correct list of annotations completes the constraints of a new manager and is refused whenever between 1 and e of its annotations are wrong, exactly if every labelling with other classes contradicts more than e of its annotations. The true classes can be recovered from the list with up to j wrong annotations (they are the only ones that contradict at most j of them) exactly if the list notices 2j mistakes. A list that notices up to e mistakes has at least (e+1)/2 times (number of IDs that are not alone in their class + k(k-1)) annotations for k classes, and for every odd e = 2j+1 there is one of exactly that size, which also corrects j mistakes. C108 is the case e = 1.", "quantifier": "all ID types, IDs, true classes, lists of annotations about the IDs, numbers of mistakes and mistakes", "why_tests_cant": "Whether several wrong annotations cancel each other out depends on all the others; the bound quantifies over all lists.", "anchors": ["src/cognitivefactory/interactive_clustering/constraints/binary.py:add_constraint", "src/cognitivefactory/interactive_clustering/constraints/binary.py:check_completude_of_constraints"]}
{"id": "C117", "title": "When MPC-KMeans finds classes that are far apart", "statement": "If the constraints agree with classes that are far enough apart, MPC-KMeans called with the number of classes returns exactly the classes, whatever the shuffles, the random choice of the first centre, the weight and the number of passes. Far enough means, in exact arithmetic: the distances between the means of two components, times the size of one of them, are larger between classes than inside; every vector is closer to the components of its class than to the others; and the squared distances to the means of the other classes are larger than the number of coordinates times the sum of the squared distances to the own means. In the real numbers it is enough that the distances between classes are more than n*D+2 times as large as the distances inside, for n IDs and D coordinates, with a small margin for the floor 10^-9. Both the number of IDs and the weights matter: must-links that agree with the classes can lead to initial centres in one class, so that the classes are no longer found, and the learned metric can undo a correct first pass on classes that all hierarchical linkages recover.", "quantifier": "all managers reachable by any operations, classes, vectors over ordered fields, shuffles, first centres, set orders, weights and numbers of passes", "why_tests_cant": "The result depends on random choices, on the order of the points and on a metric that changes in every pass; separation is a condition on all of them.", "anchors": ["src/cognitivefactory/interactive_clustering/clustering/mpckmeans.py:cluster", "src/cognitivefactory/interactive_clustering/clustering/mpckmeans.py:weighted_farthest_first_traversal", "src/cognitivefactory/interactive_clustering/clustering/mpckmeans.py:_initialize_cluster_centers", "src/cognitivefactory/interactive_clustering/clustering/mpckmeans.py:_assign_clusters", "src/cognitivefactory/interactive_clustering/clustering/mpckmeans.py:_get_cluster_centers", "src/cognitivefactory/interactive_clustering/clustering/mpckmeans.py:_update_metrics"]}
{"id": "C118", "title": "MPC-KMeans on vectors that are moved, mirrored, rotated or measured in another unit", "statement": "Shifting all vectors by one vector, mirroring coordinates and exchanging coordinates changes neither the clusters nor the exceptions of MPC-KMeans, whatever the constraints, the shuffles, the weight, the number of clusters and the number of passes. Measuring the vectors in another unit changes nothing either, as long as the two absolute numbers of the code do not decide: in every pass the centres move by more than 10^-6 in both units or in none, and if they do, the quantities the metric is computed from are at least 10^-9 in both units. Without this the unit matters: the same vectors divided by 10^5 are clustered differently. Rotations matter too, though they keep all distances, because the learned metric has one weight for each coordinate.", "quantifier": "all managers reachable by any operations, vectors over ordered fields, shifts, signs and permutations of the coordinates, units, random choices, set orders, weights and numbers of passes", "why_tests_cant": "Tests use one set of vectors; the invariance is about all vectors and all moves, and the floor and the tolerance only show in data of another size.", "anchors": ["src/cognitivefactory/interactive_clustering/clustering/mpckmeans.py:cluster", "src/cognitivefactory/interactive_clustering/clustering/mpckmeans.py:weighted_farthest_first_traversal", "src/cognitivefactory/interactive_clustering/clustering/mpckmeans.py:_initialize_cluster_centers", "src/cognitivefactory/interactive_clustering/clustering/mpckmeans.py:_find_farthest_pairs_of_points", "src/cognitivefactory/interactive_clustering/clustering/mpckmeans.py:_objective_fn", "src/cognitivefactory/interactive_clustering/clustering/mpckmeans.py:_assign_clusters", "src/cognitivefactory/interactive_clustering/clustering/mpckmeans.py:_get_cluster_centers", "src/cognitivefactory/interactive_clustering/clustering/mpckmeans.py:_update_metrics"]}
{"id": "C119", "title": "The random numbers of MPC-KMeans come from numpy's generator", "statement": "With numpy's Mersenne Twister, np.random.shuffle gives a permutation, every order from exactly one list of draws; np.random.choice(n, k, replace=False) gives k different numbers below n; each draw is uniform, and more than half of the words are accepted. The first centre is a valid index also with rounded weights, and the chance of a neighbourhood is its share of the data: of the 2^53 numbers of random_sample it gets 2^53 * size / total up to less than 1 in exact arithmetic, and up to 16 n + 33 with the roundings of the weights, their sums and the division. A call with the generator has the result or error of one of the calls without generator that the other theorems speak about, and leaves the generator in a proper state. random_seed has no effect: after np.random.seed(7) two calls with the same arguments give different clusters.", "quantifier": "all lists, sizes, bounds below 2^32, generators that give words of 32 bits, managers reachable by any operations, vectors, environments and states of the generator", "why_tests_cant": "A test sees one state of the generator; uniformity, the effect of rounding on the chances and the link between the run and the assumptions on the choices concern all states.", "anchors": ["src/cognitivefactory/interactive_clustering/clustering/mpckmeans.py:__init__", "src/cognitivefactory/interactive_clustering/clustering/mpckmeans.py:cluster", "src/cognitivefactory/interactive_clustering/clustering/mpckmeans.py:weighted_farthest_first_traversal", "src/cognitivefactory/interactive_clustering/clustering/mpckmeans.py:_initialize_cluster_centers", "src/cognitivefactory/interactive_clustering/clustering/mpckmeans.py:_assign_clusters"]}
{"id": "C120", "title": "MPC-KMeans with constraints need not converge", "statement": "There are four data on a line and constraints whose two components are the two clusters asked for, so that nothing but the shuffles is random, such that the passes of MPC-KMeans alternate between two states for ever, for all shuffles that begin with the first two data. The result depends on the parity of max_iteration, however large it is: after an even number of passes all constraints are satisfied, after an odd number they are not.", "quantifier": "all numbers of passes and all sequences of shuffles that begin with the first two data", "why_tests_cant": "A test runs one number of passes; the claim is about all numbers of passes and many shuffles.", "anchors": ["src/cognitivefactory/interactive_clustering/clustering/mpckmeans.py:cluster", "src/cognitivefactory/interactive_clustering/clustering/mpckmeans.py:_objective_fn", "src/cognitivefactory/interactive_clustering/clustering/mpckmeans.py:_assign_clusters", "src/cognitivefactory/interactive_clustering/clustering/mpckmeans.py:_get_cluster_centers", "src/cognitivefactory/interactive_clustering/clustering/mpckmeans.py:_update_metrics"]}
{"id": "C121", "title": "COP-KMeans with rounding errors", "statement": "When the distances between data and centroids are off by at most e, each decision of the exact run of COP-KMeans wins by more than 2e, and both runs agree on the tolerance, then the run with errors returns the same clusters; its centroids are made from the same data. Without a margin, every datum still gets a centroid that is at most 2e farther than the nearest admissible one. In binary64, with at most 2^20 vectors of one coordinate up to B, means are off by at most B / 2^31 and distances to centroids by at most B / 2^23, so margins of B / 2^22 for the decisions and k * B / 2^22 for the tolerance (k centroids) are enough. Without a margin the clusters can differ: 2^29, 2^29 + 1 and 2^29 + 5 are put in one cluster.", "quantifier": "all reachable managers, vectors, environments, numbers of clusters and of iterations; all vectors of one coordinate for the statements on binary64", "why_tests_cant": "A test compares the results on some vectors; rounding errors in the many passes of a run depend on all of them, and the claim bounds them for all inputs.", "anchors": ["src/cognitivefactory/interactive_clustering/clustering/kmeans.py:cluster", "src/cognitivefactory/interactive_clustering/clustering/kmeans.py:_clustering_kmeans_model_COP", "src/cognitivefactory/interactive_clustering/clustering/kmeans.py:initialize_centroids", "src/cognitivefactory/interactive_clustering/clustering/kmeans.py:compute_centroids"]}
{"id": "C122", "title": "Distances of vectors of any length in binary64, whatever the order of the additions", "statement": "numpy, scipy and BLAS may add up the products of a scalar product in any order. For every order, with or without fused multiply-add, the distance that scikit-learn computes for two vectors x, y with D entries differs from the euclidean distance by at most eta times the length of (|x_i| + |y_i|), for every eta with eta^2 >= (D + 2) / 2^50. So for vectors of length up to R: hierarchical clustering (single, complete) and sampling return what they return in exact arithmetic when distances of different pairs differ by more than 4 eta R, C-DBScan when no distance is within 2 eta R of the radius, and COP-KMeans of at most 2^20 vectors when each decision of the exact run wins by more than 6 eta R and no sum of moves of k centroids is within 4 k eta R of the tolerance.", "quantifier": "all reachable managers, all vectors with any number D of entries, all orders of the additions, all parameters", "why_tests_cant": "A test runs one order of the additions, that of the libraries and the processor at hand, and the results of another one can differ; the claim is about all of them.", "anchors": ["src/cognitivefactory/interactive_clustering/clustering/kmeans.py:_clustering_kmeans_model_COP", "src/cognitivefactory/interactive_clustering/clustering/kmeans.py:compute_centroids", "src/cognitivefactory/interactive_clustering/clustering/hierarchical.py:cluster", "src/cognitivefactory/interactive_clustering/clustering/dbscan.py:cluster", "src/cognitivefactory/interactive_clustering/sampling/clusters_based.py:sample"]}
{"id": "C123", "title": "The linkages \"average\" and \"ward\" in binary64, with all versions of Python", "statement": "Python's sum of floats adds from left to right until Python 3.11 and compensates rounding errors since 3.12; the project supports both. For both, the sum of k <= 2^23 floats is off by at most (10 k + 2) / 2^53 times the sum of the absolute values. For vectors of length up to R (eta as in C122), the distances of the linkage \"average\" are off by at most 3 eta R (up to 2^20 data), those of \"ward\" by at most 2 N eta R (N <= 2^12 data). So when each merge of the exact tree wins by more than 6 eta R, or 4 N eta R, the hierarchical clustering returns the same tree and clusters in binary64, with any order of the additions in scalar products and any version of Python; without a margin, each merge is at most (6 + 4 N) eta R farther apart than another pair that existed. Without a margin the version of Python can change the clusters: 0.1, 0.2, 0.5, 0.9 with \"ward\".", "quantifier": "all reachable managers, vectors with any number of entries, orders of the additions, versions of Python, numbers of clusters", "why_tests_cant": "A test runs with one version of Python and one order of the additions; the claim is about all of them.", "anchors": ["src/cognitivefactory/interactive_clustering/clustering/hierarchical.py:cluster", "src/cognitivefactory/interactive_clustering/clustering/hierarchical.py:_compute_distance", "src/cognitivefactory/interactive_clustering/clustering/hierarchical.py:update_centroid"]}
{"id": "C124", "title": "From texts to clusters in binary64: TF-IDF vectors with rounding errors", "statement": "TfidfVectorizer as the code calls it, with a rounding after each operation (a logarithm with relative error at most 2^-50, any order of the additions in the norm), fails for exactly the texts for which exact arithmetic fails; otherwise each entry has the exact value up to a factor of (1 + 2^-52)^(D + 18), with D terms, and is 0 exactly if the exact one is. Let eta be at most 1/8 with eta^2 >= (D + n + 21) / 2^50. Then computed distances of texts, and of texts and centroids of at most n texts, are off by at most 3 eta. So DBScan, sampling by distance, hierarchical clustering (single, complete) and COP-KMeans return the results of exact arithmetic when no comparison is closer than 6 eta (3 eta for the radius; k * 4 eta for the sum of k moves). Texts with a word in common are closer than sqrt 2 + 3 eta, texts without are 3 eta near sqrt 2. The documented program ends with the true clusters of a truthful annotator, with computed vectors. But texts with equal exact vectors can have different computed vectors.", "quantifier": "all texts, logarithms within the bound, orders of the additions, reachable managers, numbers of clusters", "why_tests_cant": "Tests use a few texts and one library; the claim is about all texts and every order of the additions.", "anchors": ["src/cognitivefactory/interactive_clustering/utils/vectorization.py:vectorize", "src/cognitivefactory/interactive_clustering/clustering/kmeans.py:cluster"]}
{"id": "C125", "title": "The range of binary64: vectors of texts never leave it, other vectors may", "statement": "With rounding as in IEEE 754 (nearest number with 53 bits, multiples of 2^-1074, finite below 2^1024): results are not finite exactly from 2^1024 - 2^970 on; additions lose no bits at the lower end of the range. Distances of vectors with at most 2^52 entries that are 0 or between 2^-450 and 2^450 are finite and are those computed with unbounded exponents, in every order of the additions. The TF-IDF vectors of at most 2^40 texts with at most 2^40 words are finite, with entries that are 0 or between 2^-200 and 2^200, and their means stay in the range. So everything C124 says about clusterings and samples of texts, and about the documented program, holds with the range of binary64. But every computed distance between vectors with entries of at most 2^-538 is 0, and no computed distance from a vector with an entry of at least 2^512 to another vector is finite.", "quantifier": "all texts up to the sizes, vectors, logarithms within the bound, orders of the additions, reachable managers", "why_tests_cant": "Tests use vectors with moderate entries; the claim is about all vectors and every order of the additions.", "anchors": ["src/cognitivefactory/interactive_clustering/utils/vectorization.py:vectorize", "src/cognitivefactory/interactive_clustering/utils/vectorization.py:tfidf", "src/cognitivefactory/interactive_clustering/clustering/kmeans.py:cluster", "src/cognitivefactory/interactive_clustering/clustering/kmeans.py:pairwise_distances"]}
{"id": "C126", "title": "Hierarchical clustering of texts with the linkages average and ward: rounding does not change the clusters", "statement": "For TF-IDF vectors in binary64 (as C124 and C125 describe them), with the range of binary64, every order of the additions and both algorithms of Python's sum: the distances of the linkage average are within 3\u03b7 of those in exact arithmetic, and those of the linkage ward (the default) for up to 4096 texts within 2N\u03b7, where N is the number of texts and \u03b7 about 2^-25 times the root of D + N. If each merge of the exact run wins by more than twice that, hierarchical clustering returns the same clusters and the same tree as in exact arithmetic. Without a margin, each merge of the computed run is within (6 + 4N)\u03b7 of the best. Python's sum of floats that are 0 or between 2^-900 and 2^900 keeps its error bound in the range of binary64.", "quantifier": "all texts up to the sizes, orders of the additions, versions of Python, managers, numbers of clusters, previous states of the object", "why_tests_cant": "Tests compare single runs; the claim is about all texts and all roundings within the bounds.", "anchors": ["src/cognitivefactory/interactive_clustering/clustering/hierarchical.py:cluster", "src/cognitivefactory/interactive_clustering/clustering/hierarchical.py:_compute_distance", "src/cognitivefactory/interactive_clustering/clustering/hierarchical.py:update_centroid"]}
{"id": "C127", "title": "MPC-KMeans: small rounding errors do not change the clusters if every choice has a margin", "statement": "Take MPC-KMeans once in exact arithmetic and once with rounding errors, with the same random numbers. Suppose that the errors are at most \u03b4 for the distances in the metric and for the weighted distances of the traversal and at most \u03b5 for the objective, that means and updates of the metric keep the relation between the two runs, and that the test of lines 272-273 is not affected. If in the exact run every farthest pair, every step of the traversal and every point moved to an empty cluster wins by more than 2\u03b4, and every assignment of a point by more than 2\u03b5, then the run with errors returns exactly the same clusters. The error of the objective is at most 3 + 4n times the error of a term or an addition, and it is worked out when all distances, terms and sums are rounded with errors of at most u. Without a margin rounding can change the clusters.", "quantifier": "all reachable managers, vectors, numbers of clusters, random numbers, numbers of iterations, error bounds, arithmetics with errors below the bounds", "why_tests_cant": "Tests compare single runs on one machine; the claim is about all inputs and all arithmetics with errors below the bounds.", "anchors": ["src/cognitivefactory/interactive_clustering/clustering/mpckmeans.py:cluster", "src/cognitivefactory/interactive_clustering/clustering/mpckmeans.py:_find_farthest_pairs_of_points", "src/cognitivefactory/interactive_clustering/clustering/mpckmeans.py:weighted_farthest_first_traversal", "src/cognitivefactory/interactive_clustering/clustering/mpckmeans.py:_initialize_cluster_centers", "src/cognitivefactory/interactive_clustering/clustering/mpckmeans.py:_objective_fn", "src/cognitivefactory/interactive_clustering/clustering/mpckmeans.py:_assign_clusters"]}
{"id": "C128", "title": "Affinity propagation: small rounding errors and the random noise do not change the clusters if every choice has a margin", "statement": "Take affinity propagation with absolute must-links once in exact arithmetic and once with rounding errors and possibly other random numbers in line 316, for at least two groups of must-linked IDs, where neither run returns early at line 304. Suppose that the similarities after the noise differ by at most \u03c3, that the preference is within \u03c4, that each iteration adds an error of at most u to the messages (for numbers up to B) and that the sums of line 439 are within \u03b3. One iteration turns messages with error e into messages with error at most n(e + \u03c4) + u for n groups, without any condition on the choice of line 387. If in every iteration of the exact run the criterion of line 417 differs from 0 by more than twice the error so far, and every exemplar chosen in lines 434-443 wins by more than 2\u03c4 or 2\u03b3, then the other run returns exactly the same clusters. This is worked out for rounding of all results with errors of at most u, and for exact runs with other random numbers. Without a margin the noise can change the clusters.", "quantifier": "all managers with at least two components, vectors, distances, random numbers, numbers of iterations, error bounds, arithmetics with errors below the bounds", "why_tests_cant": "Tests compare single runs on one machine with one seed; the claim is about all inputs, all random numbers and all arithmetics with errors below the bounds.", "anchors": ["src/cognitivefactory/interactive_clustering/clustering/affinity_propagation.py:cluster", "src/cognitivefactory/interactive_clustering/clustering/affinity_propagation.py:_affinity_propagation_constrained"]}
{"id": "C129", "title": "Affinity propagation in binary64: an error bound for each iteration, and the same clusters as in exact arithmetic if every choice has a margin", "statement": "Model affinity propagation with absolute must-links with a rounding after every operation of lines 302-346 and 386-417 (relative error at most \u03b5) and any computed sums (relative error at most \u03c1). If all similarities and messages are at most B, one iteration for n groups gives messages within 250 n B (\u03b5 + \u03c1) of the exact iteration on the same numbers, whichever maximum line 387 picks, and line 417 chooses exactly the groups whose computed messages have a positive sum. The preference is within \u03c3 + 3\u03b5(B + \u03c3) and the sums of line 439 are within n\u03c4 + \u03c1 n (B + \u03c4). In binary64, \u03b5 = 2^-53 and sums of n numbers one after the other have \u03c1 = n 2^-52, for up to 2^52 groups. So if the exact run takes no decision closer than these errors (as in C128), affinity propagation in binary64 returns the same clusters as in exact arithmetic.", "quantifier": "all managers with 2 to 2^52 components, vectors, distances, noise, numbers of iterations, bounds; all roundings and sums with the given relative errors", "why_tests_cant": "Tests run single examples in binary64 and cannot compare them with exact arithmetic, let alone for all inputs.", "anchors": ["src/cognitivefactory/interactive_clustering/clustering/affinity_propagation.py:cluster", "src/cognitivefactory/interactive_clustering/clustering/affinity_propagation.py:_affinity_propagation_constrained"]}
{"id": "C130", "title": "Affinity propagation in binary64 from the distances on: the errors of the noise and the early return", "statement": "Model line 316 with a rounding after every operation (relative error at most \u03b5 \u2264 1). If the similarities are at most D and off by at most \u03b4 and the random numbers are at most Z, the similarities after line 316 are off by at most \u03b4(1 + eps Z) + \u03b5((D + \u03b4) + 15 (eps (D + \u03b4) + 100 tiny) Z). If two similarities of different points differ by more than 2\u03b4, the early return of line 304 is taken neither in exact arithmetic nor with the errors. Euclidean distances in binary64, with the additions in any order, give similarities off by at most 2\u03b7R (C122). A sum of at most n numbers one after the other has relative error at most 2n\u03b5. So affinity propagation with absolute must-links, with distances off by at most \u03b4 and with rounding in every later operation, returns the same clusters as in exact arithmetic if the exact run takes no decision closer than these errors.", "quantifier": "all managers with at least two components, vectors, distances, random numbers up to Z, numbers of iterations, bounds; all roundings and sums with the given relative errors", "why_tests_cant": "Tests run single examples in binary64 and cannot compare them with exact arithmetic, let alone for all inputs.", "anchors": ["src/cognitivefactory/interactive_clustering/clustering/affinity_propagation.py:cluster", "src/cognitivefactory/interactive_clustering/clustering/affinity_propagation.py:_affinity_propagation_constrained"]}
