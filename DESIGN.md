# Formal model of cognitivefactory/interactive-clustering: design

The model is written in Lean 4 under `lean/Verif/`. It is read off the python source in
`/repo` (paths below are relative to `/repo/src/cognitivefactory/interactive_clustering/`).
The code is not executed: the tie between code and model is the reading, so each model definition
carries the file and lines it models, and each simplification is stated in the header of its file
and in "What is modelled" below.

## Layout

| directory | content |
|---|---|
| `Verif/Py/` | the python data structures used: insertion-ordered `dict`, exceptions, `sorted`, `min`, ... |
| `Verif/Model/` | functional models, one python function (or loop body) per definition |
| `Verif/Spec/` | small independent specifications (closure of constraints, valid clusterings, ...) |
| `Verif/Proofs/` | helper lemmas and invariants |
| `Verif/Tests/` | the tests of the repository, run on the model (see Conformance) |
| `Verif/Props/` | the property theorems, named `Cnn_...`, with examples that their hypotheses can be met |

`properties.jsonl` lists the properties, `MANIFEST.json` the theorems claimed for each of them,
`seeded/LOG.jsonl` the seeded-bug tests: for each wrong variant of the model, which theorems no longer
prove.

## Conventions

* Data IDs: an arbitrary linearly ordered type `α`. In the code they are `str`, compared with
  `<`, `<=`, `==` only; python compares strings by code point, a linear order. In the model of the
  JSON text they are lists of code points.
* Python `dict`: association list in insertion order with unique keys; assignment to an
  existing key keeps its position, assignment to a new key appends. `Dict[str, None]`
  "ordered sets" are the lists of their keys.
* Exceptions: values of `PyErr`. Methods that mutate a manager or a clustering object return
  *both* the result and the state, also when they raise, so that "a failed call changes nothing"
  is a theorem and not a modelling artefact. `d[k]` on a missing key is an explicit `keyError`, a list
  index out of range an explicit `indexError`, and so on: that such an exception does not occur is
  always a theorem.
* Mutation: dictionaries and lists are values. For the manager this is proved harmless: `Model/Heap.lean` is a
  second model of the same methods with addresses, sharing and in-place changes, and C73 proves that it
  refines the model with values. `Model/DbHeap.lean` and C106 do the same for the lists of C-DBScan,
  `Model/HierHeap.lean` and C109 for the clusters and lists of the hierarchical clustering. Elsewhere it is an
  argument by reading: the other clusterings and the samplings change only lists and dictionaries that they have just created
  and that have one name.
* Loops over finite collections are folds. `while` loops and recursion take fuel, and a theorem shows
  that the fuel given by the top-level definition is never exhausted (for `_dfs` of MPC-KMeans the fuel
  is python's recursion limit and exhausting it is the `RecursionError` of C62).
* Randomness: `random.sample`, `random.shuffle`, `np.random` are arbitrary selections or permutations
  passed as parameters; theorems quantify over them. Python `set` iteration order is an arbitrary
  enumeration parameter. Nothing is assumed about seeds. C96 goes one level deeper, to the numbers that `randbelow` returns,
  and C101 to python's generator and `random.seed`.
* MPC-KMeans puts the IDs into a numpy string array, which drops trailing NUL characters of an ID. `Model/MPC.lean` stores the IDs unchanged;
  `Model/MpcNames.lean` and C112 have numpy's strings.
* Numerics: vectors are opaque; distances take values in an arbitrary linear order (with a top
  element for `Inf` where the code uses it), or in `ℚ` or an ordered algebraic structure where
  arithmetic matters (C50, C66). Floating-point rounding (`Py/Float.lean`, unbounded exponents) is modelled for the frequencies (C97), for
  the distances and means of vectors (C99, C121, C122, C123, `C89_average_rounding`) and for TF-IDF vectors (C124). `Model/Ieee.lean` has the
  range of binary64 (C125): results that are not finite are `none`, without a difference between infinity and NaN. The other theorems hold
  for any distance function with values in a linear order, so also for computed distances, except where they assume a symmetric or exact
  one. (`pairwise_distances` of scikit-learn refuses vectors with entries that are not finite.)
* External libraries (networkx, scikit-learn, scipy, spaCy, numpy) are parameters with stated
  assumptions, or small models where the logic is simple (greedy colouring).

## What is modelled

| code | model | not modelled |
|---|---|---|
| `constraints/binary.py`, class `BinaryConstraintsManager`, lines 70-498, 580-751 | `Model/Constraints.lean` | the type checks of arguments that are not strings; constraint values are 1.0 or rejected as in the code |
| `binary.py:501-575` `get_min_and_max_number_of_clusters` | `Model/Bounds.lean`, with networkx' `greedy_color` for any visiting order | networkx' own strategies (any order covers them) |
| `binary.py:754-830` `to_json`, `load_constraints_manager_from_json` | `Model/Serialize.lean` (document), `Model/Json.lean` (text: python's `json` encoder and decoder on code points), `Model/File.lean` (bytes: encoding and line ends) | the file system; lists of IDs that are all numbers; the recursion limit of the decoder |
| `constraints/factory.py`, `sampling/factory.py`, `clustering/factory.py`, all `__init__` option checks | `Model/Factory.lean` | option values other than none, booleans, integers, rationals, strings; warnings |
| `random.sample`, `random.shuffle` (CPython's `Lib/random.py`) | `Model/Random.lean` (any draws), `Model/Twister.lean` (CPython 3.11's generator, seeding, `randbelow`, the size at which `sample` changes its method) | seeds that are not integers or none; the entropy of the operating system (a parameter) |
| `sampling/clusters_based.py` | `Model/Sampling.lean` | the numeric values of distances |
| `clustering/abstract.py:69-100` `rename_clusters_by_order` | `Model/Rename.lean` | |
| `clustering/kmeans.py` | `Model/KMeans.lean` | values of distances and means (parameters); `verbose` |
| `clustering/hierarchical.py` | `Model/Hierarchical.lean`, `Model/HierExport.lean` (`add_new_children`, `to_dict`) | values of metric, mean and ward formula (parameters) |
| `clustering/dbscan.py` | `Model/DBScan.lean` | `random_seed`, warnings |
| `clustering/dbscan.py:155-551` again, with addresses of list objects, sharing and in-place changes | `Model/DbHeap.lean` | |
| `clustering/hierarchical.py:86-678, 692-741, 801-824` again, with addresses of `Cluster` and list objects, sharing and in-place changes | `Model/HierHeap.lean` | `add_new_children`; `children` and `list_of_clusters` lists, which have one name |
| `clustering/spectral.py` | `Model/Spectral.lean` | scikit-learn's solver (parameter, may raise; for C87 an ideal one in exact arithmetic, `Spec/SpectralExact.lean`); `kargs` given to it; `clustering_spectral_model_CCSR`, whose body is inside a string literal |
| `clustering/affinity_propagation.py` | `Model/Affinity.lean` (arithmetic as parameters), `Model/Messages.lean` (lines 270, 316, 351-417, 439 in exact arithmetic, an instance of the parameters), `Model/FloatAp.lean` (lines 302-346, 386-417, 439 with rounding, absolute must-links) | overflow; the random generator (its numbers are parameters) |
| `clustering/mpckmeans.py` | `Model/MPC.lean` (arithmetic as parameters), `Model/MPCExact.lean` (lines 306-323, 505-537, 272-273, 581-612 in exact arithmetic, an instance of the parameters), `Model/MpcNames.lean` (lines 207, 279-285 with numpy's strings) | rounding, except as a bound on errors (C127); the random generator; the argument `y` |
| `constraints/binary.py` again, with addresses of dict objects, sharing and in-place changes | `Model/Heap.lean` | `to_json`, min/max, conflict report (functions of the same contents) |
| the six clustering classes as objects with attributes | `Model/Objects.lean` | attributes that no method reads |
| `utils/frequency.py` | `Model/Frequency.lean` (exact, and rounded to binary64) | |
| `utils/preprocessing.py`, `utils/vectorization.py` | `Model/Text.lean`, `Model/Tfidf.lean` (TF-IDF with the options of the code, in real arithmetic), `Model/FloatTfidf.lean` (the same in binary64), `Model/Ieee.lean` (with the range of binary64) | spaCy, Unicode functions, `np.log` (parameters) |

The abstract base classes only declare signatures. `__init__.py` files only import.

Assumptions on parameters, stated as hypotheses of the theorems that need them:

* `SetOrder enum`: the enumeration of a set lists its elements once. `Shuffles`: a shuffle permutes.
* `KMeansEnv.Ok`: the two of them. `DbAssumptions`: set order, and a vector is within `eps` of itself.
* `ApAssumptions`: numpy calls return arrays of the right shape, adding zero changes nothing.
  `ApDistance` (only C47): a vector is nearest to itself, negation reverses the order, the median is at
  least the smallest entry.
* `ExactKMeans` (only C75): costs grow with distances, the mean is the only minimum of the sum of costs, and
  unmoved centroids are within the tolerance; proved for real inner product spaces (`euclid_exact`).
* `MpcAssumptions`: shuffles are permutations, random choices are valid positions.
* Sampling: `random.sample` returns `k` elements at distinct positions.
* Greedy colouring: none (any visiting order).

The examples beside the theorems instantiate these parameters with computable functions.

## Plan per property

Manager (`constraints/binary.py`). One invariant `Inv` ties the two dictionaries together
(same keys, no duplicates, row keys `{y | x ≤ y}`, the transitivity table is the closure of the
edge set, all members of a component hold the *same* list, no contradiction). It is proved for
the constructor and preserved by each method; then the API theorems are corollaries over the
predicate `Reachable` (any history of calls, also failing ones). In addition `manager_refines_store`
is a refinement to an abstract store of annotations.

* C01 closure: `Inv` + definition of `get_inferred_constraint`. Spec: `Relation.ReflTransGen`
  over `get_added_constraint`.
* C02 managed list: induction over histories against a list specification.
* C03 satisfiable: the clustering "component of x" satisfies all constraints.
* C04 accepted iff satisfiable: both directions through the closure.
* C05 failed call unchanged: case analysis on each method (model returns state on error).
* C06, C07 frame conditions of add/delete constraint: dict lemmas.
* C08, C09 delete/add ID: dict lemmas + regenerated closure.
* C10, C11 symmetry, equivalence, congruence: from C01.
* C12 components: dedup of equal lists is dedup of components because members share the list.
* C13 completeness: counting with nodup and disjointness.
* C14-C16 min/max: greedy colouring model over arbitrary node orders, pigeonhole, splitting.
* C17 conflict list: components.
* C18 JSON round trip: replaying the edges of a consistent manager never conflicts; closure
  depends only on edges.
* C19, C20 order independence, monotonicity: closure depends only on the edge set.
* C21 no internal exception: all lookups succeed under `Inv`.
* C22 values 1.0: invariant on stored values, irrelevance of arguments.
* C23 JSON text: printer and parser of the written format, round trip and prefix rejection.

Sampling (`sampling/clusters_based.py`).

* C24-C28: the candidate list is a filter of ordered pairs; stable sort + take; random selection
  as arbitrary sub-permutation of the right size.
* C29 interactive loop: invariant "all added constraints agree with the truth", measure = number
  of unknown pairs.

Clustering.

* C30 rename: first-occurrence mapping.
* C31-C34 COP-KMeans: loop invariant on partial assignments.
* C35-C40, C54, C55 hierarchical: invariants on current clusters and distances, tree invariants.
* C41-C44, C56-C59 C-DBScan: phase invariants; counterexamples for MUST_LINK and density by evaluation.
* C45 spectral: matrix entries after the two loops.
* C46, C47, C60, C61 affinity propagation: message passing is an oracle, pre/post-processing modelled.
* C48, C49, C62-C66 MPC-KMeans: graphs, initialisation and assignment step modelled, arithmetic arbitrary.
* C50 frequencies: exact rationals.
* C51 factories, C52 text utilities: branch-by-branch models with spaCy/scikit as parameters.
* C53, C67 reuse: the classes as objects whose methods read and write attributes (`Meth σ β`, a state
  that survives exceptions); each call refines the model without attributes, whatever the attributes are.

Modules together.

* C68 number of annotations: merging argument over the list of added pairs.
* C69 forced result: C13 with C31/C35, uniqueness of first-appearance numbering.
* C70, C71 the interactive loop, C72 the program of `docs/usage.md`: the calls of the models composed
  (`Spec/Loop.lean`, `Spec/Usage.lean`), measure = number of unknown pairs.
* C73 objects and values: a simulation relation (`RelM`: same content, entries and rows unshared), kept by
  every primitive step; set objects only grow in number, so a shared set keeps its content.
* C74 merge distances: by induction on the cluster IDs, two clusters without cannot-link that exist
  after a merge at `d` are at least `d` apart; the new cluster is the union of two such.
* C75 objective of KMeans: the nearest centroid and then the mean can only lower the sum; the pair (number of
  clusters, sum) decreases strictly unless the centroids stay, and there are finitely many labellings.
* C76 messages: `tmp`/`argmax` tricks of lines 386-410 against the formulas of Frey and Dueck, by cases on
  whether the position is that of the first maximum.
* C77, C78 small numbers of closures: invariants of the messages under a pass (availabilities are at most 0
  off the diagonal; bounds and signs for the closest pair), carried through the loop to its exit.
* C79-C81 MPC-KMeans in exact arithmetic: induction over the arg-min loop (`assign_nearest`, `assign_heavy`);
  C80 chains four inequalities (nearest centre, move of a point into an empty cluster, mean, `N / max(t, eps)` as the
  minimum of `a*t - N*log a` below `N/eps`); convergence by the number of labellings with a smaller objective. A
  repair (ten clusters or more) that gains nothing means that every point coincides with its centre; then the sum of
  the first nearest labels decreases instead (`collapse`, `mpcRank`).
* C82 export: induction over cluster IDs (children have smaller IDs); two clusters with a common member are one below
  the other (`TreeInv.laminar`); the deep tree by strong induction over the merges (`Built.powers`).
* C83 connectivity: `dbCluster_gen`, any property of point lists that local and core clusters have and that unions within the
  radius keep; local clusters are stars around their ID (`StarInv`).
* C84 order of sets: two runs in step; dictionaries of sets stay equal up to permutation of the lists, assignments up to the
  string for "not assigned".
* C85 vectors: every lookup is that of a managed ID; for the hierarchical clustering all stored members are managed
  (`StoredManaged`).
* C86 names: the abstract store of a history commutes with an injective renaming, and every answer is a function of it; for
  the order inside components two runs in step (`NameSim`); every loop of every algorithm in step with its renamed run.
* C87 ideal spectral solver: a frame with energy 0 exists when there are as many classes as columns, so the rows of every optimal
  frame are equal inside the classes and different between them, and k-means finds them; for the witness the frame with least
  energy is computed up to rotation (`TwoBlocks.rows`).
* C88 number of clusters of COP-KMeans: the keys of the centroids only shrink without cannot-links; for the family the state
  "every ID has its own centroid" is reached in the first pass and kept.
* C89 inferred constraints: the lists of components are the same up to the order inside them; the dendrograms of two runs in step
  have equal shape and members up to permutation (`SameStorage`); affinity propagation reads components only through sets,
  maxima and sums over blocks (`apBlock_perm`).
* C90 other vectors: what each algorithm sees of the vectors (the order of the distances, the distances, or which of them are at
  most `eps`), by runs in step over two environments (`Spec/Geometry.lean`). For real vectors, a map that multiplies all distances
  by the same number is affine if the target is strictly convex, so it commutes with means (`Proofs/GeometryReal.lean`).
* C91 number of questions: every answer about an unknown pair removes a component or an unknown pair of different classes; if the
  pairs of different classes come first it removes exactly one, and if they come last it settles a whole pair of classes.
* C92 repair of a conflict: the report of C17 is a union of classes, so deletions inside it do not touch chains outside it, and the
  other way round (`Spec/Repair.lean`).
* C93 order of the IDs: the two hierarchical runs are compared merge by merge; with strict merges the inner nodes get the same numbers and
  only the leaves are renumbered (`Proofs/OrderHier.lean`).
* C94 later cuts: the tree does not depend on `nb_clusters`, so that a cut is what a new call would return; the parts of a tree above one node
  respect the constraints because only compatible nodes are merged before the last merges (`Props/Cuts.lean`).
* C95 stored centroids: the last pass of the loop computes the centroids of the clusters it ends with; the renaming of the labels is injective
  on them (`Props/Centroids.lean`).
* C96 random choices: `random.sample` and `random.shuffle` of CPython as list programs over the numbers drawn (`Model/Random.lean`); each result is
  reached by exactly one list of draws (induction over the loop); the chance of a pair by double counting and a swap of two pairs
  (`Proofs/Random.lean`).
* C97 frequencies in floats: `fl`, rounding to 53 significant bits (`Py/Float.lean`), proved to be monotone, nearest, and exact on floats
  (`Proofs/Float.lean`); the sizes by the relative error 2^-53; the sums by the triangle inequality and induction.
* C98 file: python's text layer (`os.linesep` on writing, codec, universal newlines on reading) in `Model/File.lean`; the text is printable by
  induction over the encoder; a cut of the bytes is a cut of the text, possibly followed by one line feed, so C23 applies.
* C99 distances in floats: `flSqrt` by an integer square root and a comparison with the midpoint, proved to be nearest
  (`Proofs/FloatSqrt.lean`); the error of the square by three relative errors; scaling because the exponent is only shifted, then C90; the losses by
  witnesses.
* C100 accepted files: entry-by-entry reading (`addEntry`), `Document` of `Spec/Document.lean` reads the listed IDs and constraints off the
  decoded value; induction over the entries with C04 and C06; the closure by C01.
* C101 generator: `Model/Twister.lean` is CPython's generator as accumulating passes over lists, so that the kernel can evaluate it; words
  below 2^32 by induction over the passes; refinement of C23-C34 by a choice function with the drawn value; positions by naturality of
  `sample` and `shuffle` (the elements of the list do not matter).
* C102 TF-IDF: words as maximal runs (`WordRuns`), a shared n-gram shares its first word, so document frequency 2 is a shared word; rows
  are maps over the sorted vocabulary times a positive factor; squared distances by expanding the square; composition with C52 and C72.
* C103 C-DBScan and must-links: recorded clusters are inside or outside an isolated group; the first ID of the group that is not "NONE" is
  assigned to itself for good, so its core cluster survives the cleaning; every core cluster with an ID of the group has all of it (C58),
  so the last one owns all (C59).
* C104 Separated classes: in every state of the merging all clusters are inside classes or all are unions of classes (induction over the
  created clusters with C54); counting clusters against classes gives the cut by iteration; for the cut by size, while there are too few
  clusters, the largest one meets two classes, and the children of such a cluster are unions of classes.
* C105 COP-KMeans and separated classes: invariant inside a pass that every assigned ID has the centroid of its class (the centroid of its
  class is admissible because the constraints agree with the classes, and it is the nearest); new centroids are means of classes.
* C106 objects in C-DBScan: `Model/DbHeap.lean` has list objects with addresses; a simulation relation (dictionary of addresses reads as
  dictionary of lists, addresses different and new) is kept by every step; the removal in place (line 522) changes one list only because addresses are different.
* C107 correct annotations: as C104 with the comparison of linkages replaced by walking a chain until it leaves a cluster; necessity from the chains (C74)
  inside merged clusters and the gaps after a merge; the condition survives further constraints. Witnesses on a line for the other algorithms.
* C108 mistakes: an accepted annotation adds exactly its demand to the labellings allowed; the bound by isolating one ID or merging two classes in a labelling;
  attained by a ring of must-links in each class and two cannot-links between representatives.
* C109 objects in the hierarchical clustering: `Model/HierHeap.lean` has `Cluster` objects and lists with addresses; the storage of addresses
  reads as the storage of values (own lists, newer than the starting heap), new IDs are fresh, and every step keeps this; a change of a list
  keeps it for the storage in which one cluster is changed.
* C110 C-DBScan and separated classes: every ID of a class with min_samples IDs has the whole class as local cluster; the first ID of the class
  that is not "NONE" takes all of it, so the class has one core cluster, which only grows by local clusters of the class; the other classes are noise and keep their must-link groups.
* C111 errors of distances: a finished tree is determined by the fact that each merge is the best pair for the distances
  (`Built`, `ClosestMerge`); two trees with the same leaves and strictly best merges agree node by node, by induction on the node.
* C112 stored names: `Model/MpcNames.lean` has the array `id_names` with any function that stores a name; the result is compared with the one of
  `Model/MPC.lean` through the dictionary comprehension of line 279, in which the last of several equal keys wins.
* C113 checking: the sessions of C91 with `same_cluster` and `different_clusters`; two sessions with the same answers are equal until the first
  different answer, so a session with any truth is compared with the session in which the clusters are the truth.
* C114 the loop counted: a loop is a session (C91, C113) with the clusterings that it computes itself (`loop_session`); clusterings with the same groups
  are equal, since labels are numbered by first appearance, so that C113 applies to a loop that clusters anew in every iteration.
* C115 Mersenne Twister: the passes of the model keep the invariant that the new words are the next 624 of the recurrence (`twist_inv`), and a pass of the
  initialisation is a run of the C loop up to the end of the array (`pass_run`). Numbers like 623 are variables in the lemmas, so that the kernel does
  not compute the loops.
* C116 several mistakes: the number of annotations a labelling contradicts is the distance of a code; cutting one ID off its class or merging two classes
  gives the lower bound, and the list of C108 repeated j+1 times attains it.
* C117 separated classes in MPC-KMeans: the traversal picks one component of every class, the first pass gives the classes, the metric update keeps the distances
  inside below those between, so every later pass gives them again.
* C118 moves and units in MPC-KMeans: a simulation of the two runs, pass by pass: all Mahalanobis distances are multiplied by one positive number (s^2 in the first
  pass, 1 later), the constant logarithm cancels, means are moved with the vectors, the widths are multiplied by s^2.
* C119 numpy's generator: words to numbers to permutations; the run by induction on the passes, collecting the shuffles that were drawn; the chances by counting
  the numbers between two entries of the rounded cumulated weights, whose error is bounded by counting roundings (`FlNear`).
* C120 a cycle of MPC-KMeans: two states of the loop (centres, metric) that lead to each other, by evaluation, and induction on the number of passes.
* C121 COP-KMeans with errors: both runs side by side as one run on pairs of vectors (C90 projects it to each half); the centroids of a pass are a function of its clusters, so that the errors do not accumulate.
* C122 binary64 with D entries: the possible results of a scalar product as a relation (all trees of additions), its error by induction; C111 and C121 do the rest.
* C123 average and ward in binary64: errors of python's two sums by induction over the list; C111 does the rest.
* C124 TF-IDF vectors in binary64: factors `(1 + 2^-52)^k` are multiplied along the computation; distances of rows of length at most 1 are then near the exact ones; C111 and C121 do the rest.
* C125 the range of binary64: numbers are multiples of 2^-1074, so additions are those with unbounded exponents; products of moderate entries are far above the lower end; then C124's theorems apply.
* C126 linkages average and ward for texts in binary64: the compensated sum stays in the range, sums and quotients round as with unbounded exponents, then C111 and C123.
* C127 MPC-KMeans with rounding errors: the computed run follows the exact one step by step, since each maximum or minimum with a margin is attained at the same place.
* C128 affinity propagation with rounding errors: maxima, sorted lists and sums depend on their entries continuously, so the messages stay close; each sign and each choice with a margin is then the same.
* C129 affinity propagation in binary64: the errors of each line are added up, and C128 is applied.
* C130 affinity propagation in binary64 from the distances on: the errors of the noise are added up, the early return is excluded by two different similarities, and C129 and C128 are applied.

## Conformance

The last item of the trusted base below, that the model reads the code rightly, is not a theorem. It is tested: the 175 test
functions of /repo/tests record values that the authors observed on the real code, and 151 of them are translated to
`Verif/Tests/`, statement by statement, and evaluated on the model by the kernel (`decide +kernel`). All agree, among them
every expected result of hierarchical clustering with the four linkages, of C-DBScan, of COP-KMeans (with the permutation
that the generator of C101 gives for the seed of the test), of affinity propagation (including its odd result under
constraints), of MPC-KMeans, of the four samplers and of the constraints manager. The translation is mechanical (from the
syntax tree of the test files), except for the class `Cluster` and the text utilities, which are done by hand.

Not translated: tests that pass something that is not a constraints manager or instantiate an abstract class (10 and 3),
results of spectral clustering (3, they come from scikit-learn), the parsing filter and the lemmatizer (2, they come from
spaCy), the constructor of `Cluster` with both or none of its two arguments (1), the usage page (1, see C72), import checks (4).

The comparison found one mistake in the model, now corrected: the exception for the option `w` of MPC-KMeans names `weight`.
These checks are tests: no claim of `MANIFEST.json` rests on them.

## Trusted base

* Lean's kernel.
* The axioms below, all from Lean's core; no axiom is added, there is no `sorry`, `native_decide` or
  `bv_decide`. `decide +kernel`, used for concrete examples and witnesses, is checked by the kernel.
* Mathlib definitions used in statements (`Relation.ReflTransGen`, `List.Perm`, `List.Nodup`,
  `List.insertionSort`, `WithTop`, sums, orders).
* The reading of the python source and of the python language, as cited in each definition.

Axioms of the theorems listed in `MANIFEST.json`:

* Classical.choice, Quot.sound, propext: 465 theorems (all others)
* Quot.sound, propext: 67 theorems (all others)
* none: 2 theorems: `C28_default_configuration`, `C52_filters_remove`
* propext: 2 theorems: `C52_vectorize_unknown`, `C96_sample_too_many`

## Findings

Disagreements between the code and its documentation, or surprising behaviour, found while modelling.
Those marked with a property are theorems.

Manager

1. `delete_constraint(x, x)` removes the implicit self MUST_LINK from the added constraints;
   inference still reports MUST_LINK; a JSON round trip restores it (C18). The round trip may also
   change the order of the connected components (C18).
2. `get_min_and_max_number_of_clusters` colours a graph whose nodes are ID strings but whose
   edges are integer pairs; the estimate is still feasible, but is at least 2 always, exceeds the
   maximum with one component, and the call fails on an empty manager (C16).
3. An ID with a lone high surrogate followed by a lone low surrogate is changed by a JSON round trip
   (C23); python strings allow it, unicode text does not contain it.

COP-KMeans

4. An empty manager makes `vstack` raise `ValueError` (C33).
5. `self.centroids` keeps the labels of before the renaming: after a call its keys need not be the
   labels of the prediction (C95: the entries are the means of the returned clusters, under other keys).

Hierarchical clustering

6. A refused second call (wrong arguments) already replaced `list_of_data_IDs`: cuts of the old tree
   then give clusters to the new IDs (C67).
7. A cut by size may return fewer clusters than asked for (C39), because a node is split into all its
   children or not at all. `compute_predicted_clusters(1)` may return a cluster with a cannot-link
   (C94: always one cluster for k ≤ 1, and no violation for k ≥ 2).
8. An empty manager raises `ValueError`.

C-DBScan

9. It may separate must-linked IDs (C43), and may ignore CORE IDs (C57); it compares a cluster size
   with `eps` (`dbscan.py:525`), and picks the smallest ID instead of the closest local cluster
   (`dbscan.py:458`). Lines 351-360 and 386-395 are never executed
   (`C42_dead_branches`).

Spectral clustering

10. The constraints only change the similarity matrix: the result honours them iff the solver's labels
    do (C45). `**self.kargs` is passed to scikit-learn, so an unknown option is accepted by `__init__`
    and fails in `cluster`.

Affinity propagation

11. Must-links are ignored when all similarities are equal, in particular always for two IDs and a
    symmetric metric (C47). Cannot-links never have any effect (C60).
12. The run never converges when `max_iteration <= convergence_iteration` (C46); the test
    `it == max_iteration` is never true.

MPC-KMeans

13. `np.bincount(labels, minlength=10)` makes the repair of empty clusters fail for fewer than ten
    clusters (C49).
14. The rows of `X` follow the order of the vectors, the constraints the order of the manager: with
    another order the constraints are applied to the wrong IDs (C65). IDs that are not managed get labels.
15. `_dfs` recurses once per ID of a component: a must-link component with about a thousand IDs
    raises `RecursionError` (C62).
16. A single ID, or points that are all equal, raise `AssertionError`; another number of vectors than
    managed IDs raises; coinciding neighbourhood centres raise `IndexError` (C64).
17. `random_seed` is stored but never used. The attributes `ml_graph`, `cl_graph` are never updated. A
    failed call keeps the prediction of the call before.

Documentation

18. The program of `docs/usage.md` takes the middle of the range of cluster numbers; when all IDs are
    must-linked the range is (2, 1), the middle 1, and clustering raises `ValueError` (C72).

Factories and utilities

19. Misspelt options are silently ignored by all constructors (C51); a keyword that the factory sets
    itself raises `TypeError` (C51).
20. `preprocess` calls `str(text)` without using it: a text that is not a string raises
    `AttributeError`, while `vectorize` accepts it (C52). The compatibility decomposition after the
    removal of punctuation can bring listed punctuation back (C52).
21. "average" linkage is the distance between centroids, not the average of the distances, and merge
    distances can decrease from one iteration to the next; so they can with the "ward" formula, which
    is not the increase of the variance (C74).
22. One must-link constraint can make COP-KMeans alternate for ever between two partitions: the first ID of
    a component decides for all of it. Whether `max_iteration` is odd or even decides the result (C75).
23. Affinity propagation with three must-link closures gives one or two clusters depending on whether the
    noise of line 316, of the size of rounding errors, makes two equal similarities different (C78).
24. With `absolute_must_links=False` affinity propagation can converge to a result that violates a must-link
    (C78, `finding_relative_must_link`).
25. MPC-KMeans never penalises a cannot-link between the two farthest points (line 512 is 0 for them), and hardly
    penalises one between points that are almost as far apart. With a single CANNOT_LINK and four vectors both IDs
    end in the same cluster for every weight `w` (C81, `C81_violated`). The penalty is that of the published algorithm.
26. In `_update_metrics` a violated must-link counts with `w` (twice `w / 2`), a violated cannot-link with `2 * w`
    (twice `w`), while `_objective_fn` counts both with `2 * w`: the loop does not minimise one objective when there
    are constraints (weights of the metric: `C79_update`; the monotonicity of C80 is stated without constraints).
27. `Cluster.to_dict` calls itself once per level, and a dendrogram can have as many levels as there are IDs
    (`C82_deep`: points 1, 2, 4, … with single linkage): with more IDs than the recursion limit (1000 by default) the
    export can raise `RecursionError` although clustering worked.
28. `Cluster.add_new_children` (no caller) forgets the own members of a leaf, keeps duplicates among the new children,
    does not update the ancestors, and changes the iteration before it can fail (`C82_add_children`); with clusters of
    the same dendrogram it always destroys the tree (`C82_add_breaks`).
29. C-DBScan is not DBSCAN even without any constraint: a core point within `eps` of a core point of a regular cluster can be
    an ignored point (`C83_core_ignored`), since a core cluster whose ID was taken by another one is dropped with all its
    points (line 420) and growing stops at the first local cluster, in the order of the IDs, that is too far (line 458); and a
    regular cluster can swallow a core point that DBSCAN separates, through shared border points (`C83_not_connected`).
30. An ID named `"NONE"` changes the clusters of C-DBScan (`C84_none_id`): the algorithm uses that string for "not assigned"
    among the IDs (dbscan.py line 333), so an ID assigned to the local cluster `"NONE"` counts as not assigned.
31. The clusters of C-DBScan depend on the names of the IDs (`C86_dbscan_names`): growing takes the local cluster with the
    smallest ID (line 458, see 9 and 29), so renaming a far point below a near one keeps the near one out of the cluster.
32. Spectral clustering can put cannot-linked IDs together even if the solver works exactly (`C87_violated`): a cannot-link only
    sets a similarity to 0, and the two IDs stay joined through others. With complete constraints and the right number of
    clusters it finds the must-link classes (`C87_complete`).
33. COP-KMeans opens a new cluster for each ID that fits no centroid, and does not offer clusters opened in the same pass to
    later IDs (kmeans.py lines 294-303). So it can return one cluster for each ID although two clusters satisfy all constraints
    and two were asked for (`C88_too_many`).
34. Average linkage averages vectors in the order in which the IDs stand in the component, and saving and loading can change
    that order (see 1). Additions of floats round, so the groups can be other ones after loading: with the data 0.1, 0.2, 0.3, 0.4
    and 0.0, of which the first three are must-linked (`C89_average_rounding`).
35. With `without_inferred_constraints=False` and `without_added_constraints=True` the sample depends on which pairs were
    annotated, not only on what follows from them (`C89_sampling_added`); this is what the options say.
36. The exceptions name the option that is at fault, except that for `w` of MPC-KMeans the message speaks of `weight`, and asks
    for more than 0 although 0 is accepted (mpckmeans.py lines 138-139; `C51_clustering_errors`).
37. C-DBScan compares the number of points of a remaining local cluster with the radius (line 525, `>= self.eps`; probably
    `min_samples` was meant). So its result depends on the unit of length: if all vectors and `eps` are multiplied by 10, clusters
    can turn into noise (`C90_dbscan_unit`). All other geometric algorithms do not depend on it (`C90_real_kmeans`,
    `C90_real_hierarchical`).
38. The result of C-DBScan depends on the order in which the IDs were given to the manager, even without constraints and without ties
    (`C93_dbscan_order`); COP-KMeans depends on it even from the same initial centroids (`C93_kmeans_order`); hierarchical clustering and
    the neighbour samplings only when there are ties (`C93_ties`).
39. scikit-learn computes distances as `sqrt(-2xy + x^2 + y^2)`, which loses half of the digits when the vectors are large against
    their distance. So computed distances are not symmetric, different vectors can be at distance 0, and moving all data can change
    the groups (C99). `C99_error` bounds what can be lost (vectors with one entry).
40. The loader does not check the shape of the document: a string instead of the list of IDs is taken as the list of its
    characters, an empty object or string as an empty list of constraints (examples in `Props/Document.lean`).
41. The library seeds the generator of the process (`random.seed`, clusters_based.py:227, kmeans.py:415): the draws of the calling
    program after a call are determined by the seed of the sampler or the clustering object, and with `random_seed=None` a seed set by the
    program is lost (`C101_replaced`, `C101_unseeded`). spectral.py:337 seeds `random` but the next line draws from `numpy.random`, so the
    seed has no effect there; the `random_sequential` colouring of binary.py:561-563 draws from the generator of the process unseeded.
    With a fixed seed, repeated sampling always selects the same positions (`C101_positions`).
42. With `min_df=2` (vectorization.py:86) a term of one text alone is dropped. Texts that differ only in such terms get the same vector:
    all texts of docs/usage.md, lines 19-27, do (`C102_documentation`). Texts that have no word in common with any other text get the zero
    vector, so they are at distance 0 from each other and `closest_neighbors` sampling asks for them first. A single text, or texts without
    a common word, raise a `ValueError` of scikit-learn that the documentation of `vectorize` does not mention.
43. C-DBScan may put must-linked IDs in no cluster at all (`C103_must_linked_ignored`): a core cluster is dropped as soon as its ID is assigned
    to another one (dbscan.py:417-423), although the points that it took stay assigned to it; they are then in no core cluster.
44. `cluster` of the hierarchical clustering cuts by size (hierarchical.py:323-325, 637-640): given the right number of clusters and classes far
    apart, it splits a large class rather than two small classes that were merged (`C104_size_needed`); the cut by iteration is right.
45. `ward` sums all the pairs of the union and divides by the number of pairs between the clusters (hierarchical.py:506-513), so the value grows
    with the size of the clusters, and two small classes are merged before a large one is complete (`C104_ward_needed`).
46. COP-KMeans draws its initial centroids among all IDs without looking at the constraints (kmeans.py:411-419): two of them may be must-linked or in
    one class, and the result may then be wrong however far apart the classes are (`C105_initial_needed`).
47. One correct annotation can spoil a clustering that was exactly right without constraints: for complete, average and ward linkage (hierarchical.py:462-516),
    for `cluster` with single linkage because it cuts by size, for COP-KMeans (all IDs end in one cluster) and for C-DBScan (an ID is left alone). Only the cut by
    iteration of single linkage without ties cannot be spoilt (C107).
48. Asking one question at a time about pairs of unknown relation (the sampler's default options) never notices a mistake of the annotator, and neither does any
    list of annotations of least size (C108): `add_constraint` raises only for annotations that are already inferred to be wrong. To notice every single mistake
    the cannot-links have to be doubled and each class of two or more IDs needs one more must-link (`C108_cost`).
49. `to_dict` puts `self.members` itself into the dictionary (line 822), not a copy. A client who changes an exported dictionary changes the
    clusters: later calls of `compute_predicted_clusters` on the same object give other labels (`C109_export_change`,
    `C109_export_change_seen`: a cut that asked for two clusters then gives three).
50. An ID that ends with a NUL character is lost in MPC-KMeans (mpckmeans.py:207, 279): numpy drops the NULs, the ID gets label -1 and the shortened
    name, managed or not, takes its cluster (C112).
51. MPC-KMeans chooses its first centres by distance times size of the linked groups. Must-links that agree with the classes can therefore make it worse: `C117_weights` has two classes that are found without constraints and no longer found after four correct must-links. `C117_metric`: the learned metric can undo a correct first pass on classes that are separated.
52. MPC-KMeans has two absolute numbers, the tolerance 10^-6 of `np.allclose` and the floor 10^-9 of the metric update, so its result depends on the unit of the vectors (`C118_unit_matters`: the same vectors divided by 10^5 give other clusters). It also depends on the directions of the axes, because the metric is diagonal (`C118_rotation`).
53. `random_seed` of `MPCKMeansConstrainedClustering` (lines 100 and 143) is documented as "the random seed to use to redo the same clustering" but is never read; the numbers come from the generator of `np.random`. Two calls with the same arguments give different clusters (`C119_seed`).
54. The loop of MPC-KMeans with constraints need not converge: each pass may undo the one before, and the result then depends on whether `max_iteration` is odd or even (`C120_cycle`; with 150 passes the constraints are satisfied, with 151 they are not). The classes are fully determined by the constraints in this case.
55. In binary64, COP-KMeans loses clusters of vectors that are far from the origin compared with their distances: the vectors 2^29, 2^29 + 1 and 2^29 + 5 end up in one cluster although two are asked for, since scikit-learn's distances, computed from the squares of the vectors, are all 0 and equal distances give the last cluster (`C121_needed`). Vectors that are not far from the origin are safe when the decisions have a margin (`C121_float`).
56. Hierarchical clustering with linkage "ward" depends on the version of Python: since Python 3.12 `sum` of floats compensates rounding errors, and the ward distance (hierarchical.py, lines 507-514) is such a sum. The vectors 0.1, 0.2, 0.5, 0.9 give the clusters 0.1, 0.2, 0.5 / 0.9 until Python 3.11 and 0.1, 0.2 / 0.5, 0.9 since 3.12 (`C123_versions`). With a margin all versions agree (`C123_ward`).
57. Texts with equal TF-IDF vectors can have different computed vectors: a text with the common words "card", "lost", "bank" once each, and one with these words three times each. Their vectors are equal, the computed ones differ in the last bit, and the computed distance can be 2^-26 (about 1.5e-8) instead of 0 (`C124_equal`, for every logarithm with a small error).
58. Vectors with very small or very large entries have useless distances, without an exception from the project's code: between vectors with entries of at most 2^-538 (about 1e-162) every computed distance is 0 (`C125_underflow`); a computed distance from a vector with an entry of at least 2^512 (about 1e154) to another vector is never finite (`C125_infinite`). Vectors of texts are far inside the range (`C125_tfidf`).
