{"id": "C01", "title": "Exact clique finder is exact", "statement": "findMaxClique(M, &out) returns the size of a largest clique of the graph whose edges are the non-zero off-diagonal lower-triangle entries of M, and out holds exactly that many distinct, in-range, pairwise adjacent vertices.", "quantifier": "every square adjacency matrix of every size", "why_tests_cant": "The search prunes branches five ways; only a proof covers every graph on which a prune could cut the optimum.", "anchors": ["src/utils/GraphUtils.cpp:findMaxClique", "include/KimeraRPGO/max_clique_finder/findClique.cpp:maxClique", "include/KimeraRPGO/max_clique_finder/findClique.cpp:maxCliqueHelper"]}
{"id": "C02", "title": "Adjacency matrix is read faithfully", "statement": "Reading an adjacency matrix yields, for each vertex, the strictly increasing duplicate-free list of the vertices it is joined to by a non-zero lower-triangle entry; the relation is symmetric, irreflexive, in range, and the maximum degree reported is the length of the longest list.", "quantifier": "every square matrix, including non-symmetric ones and ones with a non-zero diagonal", "why_tests_cant": "Infinitely many matrices; off-by-one in the offset array shows up only on particular sizes.", "anchors": ["include/KimeraRPGO/max_clique_finder/graphIO.cpp:ReadEigenAdjacencyMatrix", "include/KimeraRPGO/max_clique_finder/graphIO.cpp:CalculateVertexDegrees"]}
{"id": "C03", "title": "Heuristic clique size is attainable", "statement": "findMaxCliqueHeu(M, &out) returns a number that is the size of some clique of the graph to which no further vertex can be added, hence never more than the exact maximum, and at least 1 for a non-empty matrix (at least 2 if there is an edge).", "quantifier": "every non-empty square adjacency matrix", "why_tests_cant": "A heuristic that over-reports on one graph would inflate the inlier set; sampling graphs cannot exclude it.", "anchors": ["src/utils/GraphUtils.cpp:findMaxCliqueHeu", "include/KimeraRPGO/max_clique_finder/findCliqueHeu.cpp:maxCliqueHeu"]}
{"id": "C04", "title": "Indices returned by the heuristic are a clique", "statement": "The first findMaxCliqueHeu(M, &out) entries of out are distinct and pairwise adjacent, so the loop closures PCM keeps are pairwise consistent.", "quantifier": "every non-empty square adjacency matrix", "why_tests_cant": "The failing graphs need a specific neighbour order; the unit tests only use graphs where the compaction happens to be order preserving.", "anchors": ["include/KimeraRPGO/max_clique_finder/findCliqueHeu.cpp:maxCliqueHeu", "include/KimeraRPGO/outlier/Pcm.h:findInliers"]}
{"id": "C05", "title": "All mutually consistent closures are kept", "statement": "If consistency is transitive (the closures split into groups, consistent inside a group and inconsistent across groups) the heuristic returns a complete largest group; in particular if all closures are mutually consistent all of them are kept.", "quantifier": "every number of closures and every partition into groups", "why_tests_cant": "Unbounded number of group structures and sizes.", "anchors": ["include/KimeraRPGO/max_clique_finder/findCliqueHeu.cpp:maxCliqueHeu", "include/KimeraRPGO/outlier/Pcm.h:findInliers"]}
{"id": "C06", "title": "Clique finders never index out of bounds", "statement": "Running any of the three clique finders on a non-empty square matrix performs only in-range accesses to their work buffers, and leaves at least as many indices in the output vector as the size they return, each a valid row of the matrix.", "quantifier": "every non-empty square adjacency matrix; for the incremental finder also every number of new rows and previous size", "why_tests_cant": "Buffers are sized by the maximum degree; an overflow needs a particular degree sequence.", "anchors": ["include/KimeraRPGO/max_clique_finder/findCliqueHeu.cpp:maxCliqueHeu", "include/KimeraRPGO/max_clique_finder/findCliqueHeu.cpp:maxCliqueHeuIncremental"]}
{"id": "C07", "title": "Incremental clique search never shrinks the inlier set", "statement": "findMaxCliqueHeuIncremental returns either 0 (keep the previous set) or the size of an actual clique strictly larger than the previous size; hence in incremental mode the inlier count of a robot pair never decreases while closures are only added.", "quantifier": "every matrix, every number of new closures, every previous clique size; every update history", "why_tests_cant": "Statement over all histories of updates.", "anchors": ["src/utils/GraphUtils.cpp:findMaxCliqueHeuIncremental", "include/KimeraRPGO/max_clique_finder/findCliqueHeu.cpp:maxCliqueHeuIncremental", "include/KimeraRPGO/outlier/Pcm.h:findInliersIncremental"]}
{"id": "C08", "title": "Pose-with-node-count algebra", "statement": "Composing poses that carry a node count is associative with the default pose as identity, inverse undoes the pose part and is an involution, between(a, a.compose(b)) recovers the pose and node count of b, and loss of rotation information is never forgotten.", "quantifier": "all poses, node counts and rotation flags", "why_tests_cant": "Algebraic laws over an infinite carrier.", "anchors": ["include/KimeraRPGO/utils/GeometryUtils.h:PoseWithNode"]}
{"id": "C09", "title": "Odometry trajectory is the running product of the measurements", "statement": "After any sequence of consecutive odometry factors of one robot, the relative pose reported between any two of its keys is the product of the odometry measurements between them (inverse when going backwards), and the hop count is the number of factors between them.", "quantifier": "every trajectory length, every measurement sequence, every pair of keys", "why_tests_cant": "Unbounded trajectories.", "anchors": ["include/KimeraRPGO/outlier/Pcm.h:updateOdom", "include/KimeraRPGO/utils/GraphUtils.h:Trajectory::getBetween"]}
{"id": "C10", "title": "Consistency checks do not depend on the initial guess", "statement": "The relative odometry between two keys of a robot, hence every odometry-consistency and pairwise-consistency verdict, is unchanged if the value supplied for the robot's first key is changed.", "quantifier": "every trajectory and every two initial values", "why_tests_cant": "Quantifies over pairs of runs.", "anchors": ["include/KimeraRPGO/outlier/Pcm.h:updateOdom", "include/KimeraRPGO/outlier/Pcm.h:isOdomConsistent", "include/KimeraRPGO/outlier/Pcm.h:areLoopsConsistent"]}
{"id": "C11", "title": "Average-error norms never divide by zero", "statement": "Every pose handed to the average translation / rotation norms during an odometry, pairwise or landmark check has a node count of at least 1.", "quantifier": "every trajectory state and every pair of loop closures, in any direction", "why_tests_cant": "A zero count arises only for specific key coincidences.", "anchors": ["include/KimeraRPGO/outlier/Pcm.h:isOdomConsistent", "include/KimeraRPGO/outlier/Pcm.h:areLoopsConsistent", "include/KimeraRPGO/outlier/Pcm.h:incrementLandmarkAdjMatrix", "include/KimeraRPGO/utils/GeometryUtils.h:PoseWithNode"]}
{"id": "C12", "title": "Error-free loop closures are accepted", "statement": "A loop closure whose measurement equals the odometry between its keys passes the odometry check for every positive threshold, and any two such closures of the same robot (in whatever direction each is expressed), or of the same two robots expressed in the same direction, pass the pairwise check.", "quantifier": "every trajectory, every pair of keys, every positive threshold", "why_tests_cant": "Infinite family of exact configurations.", "anchors": ["include/KimeraRPGO/outlier/Pcm.h:isOdomConsistent", "include/KimeraRPGO/outlier/Pcm.h:areLoopsConsistent", "include/KimeraRPGO/outlier/Pcm.h:checkOdomConsistent", "include/KimeraRPGO/outlier/Pcm.h:checkLoopConsistent"]}
{"id": "C13", "title": "Pairwise check does not depend on the direction a closure is expressed in", "statement": "Replacing an inter-robot loop closure (a->b, T) by the equivalent (b->a, T^-1) does not change whether it is consistent with another closure between the same robots.", "quantifier": "every pair of inter-robot closures", "why_tests_cant": "Direction combinations times all geometries; the unit tests use one direction.", "anchors": ["include/KimeraRPGO/outlier/Pcm.h:areLoopsConsistent"]}
{"id": "C14", "title": "Covariance bookkeeping of between inverts compose", "statement": "With covariances, between(a, a.compose(d)) has exactly the pose and covariance of d when d's covariance is positive definite; composition is associative, covariances stay symmetric positive semidefinite under compose, and a result has rotation information exactly if every operand has.", "quantifier": "all poses and all covariance matrices, any dimension", "why_tests_cant": "Matrix identity over a continuous domain.", "anchors": ["include/KimeraRPGO/utils/GeometryUtils.h:PoseWithCovariance"]}
{"id": "C15", "title": "Threshold semantics", "statement": "A negative threshold disables the corresponding check (everything passes); a zero threshold rejects everything; raising a threshold never turns an accepted measurement into a rejected one.", "quantifier": "every measurement and every pair of thresholds", "why_tests_cant": "Continuous parameter domain.", "anchors": ["include/KimeraRPGO/outlier/Pcm.h:Pcm", "include/KimeraRPGO/outlier/Pcm.h:isOdomConsistent", "include/KimeraRPGO/outlier/Pcm.h:checkOdomConsistent", "include/KimeraRPGO/outlier/Pcm.h:checkLoopConsistent", "include/KimeraRPGO/SolverParams.h:PcmParams"]}
{"id": "C16", "title": "Graph layout: odometry first, then special factors", "statement": "With outlier rejection, after every call that rebuilds the graph the factor graph is: all odometry factors ever accepted in arrival order, then all non-between factors still held in arrival order, then inlier loop closures, then landmark observations. Odometry is never dropped, duplicated or reordered.", "quantifier": "every call history and every hash-map iteration order", "why_tests_cant": "All histories; hash iteration order is not controllable from a test.", "anchors": ["include/KimeraRPGO/outlier/Pcm.h:buildGraphToOptimize", "include/KimeraRPGO/outlier/Pcm.h:removeOutliers"]}
{"id": "C17", "title": "Loop closures in the graph come from the user and passed the odometry check", "statement": "Every loop closure or landmark factor present in the graph is one the user supplied in some earlier update, joins two different keys both of which had values, and, if it joins two keys of one robot and the odometry check is on, was consistent with odometry when it was added.", "quantifier": "every call history and every hash-map iteration order", "why_tests_cant": "All histories.", "anchors": ["include/KimeraRPGO/outlier/Pcm.h:removeOutliers", "include/KimeraRPGO/outlier/Pcm.h:parseAndIncrementAdjMatrix", "include/KimeraRPGO/outlier/Pcm.h:buildGraphToOptimize"]}
{"id": "C18", "title": "Every factor is classified into exactly one class", "statement": "In one update each non-null factor is handled exactly once: odometry, first landmark observation, loop-closure candidate or non-between factor; a candidate is dropped only if it joins a key to itself, mentions an unknown key, or fails the odometry check.", "quantifier": "every batch of factors and values", "why_tests_cant": "All factor mixes and key patterns.", "anchors": ["include/KimeraRPGO/outlier/Pcm.h:removeOutliers", "include/KimeraRPGO/outlier/Pcm.h:parseAndIncrementAdjMatrix"]}
{"id": "C19", "title": "getNumLC counts registrations and never decreases", "statement": "getNumLC() increases by exactly the number of loop closures and landmark observations registered by a call and is unchanged by every other call, including removals.", "quantifier": "every call history", "why_tests_cant": "All histories.", "anchors": ["include/KimeraRPGO/outlier/Pcm.h:getNumLC", "include/KimeraRPGO/outlier/Pcm.h:removeOutliers", "include/KimeraRPGO/outlier/Pcm.h:parseAndIncrementAdjMatrix", "include/KimeraRPGO/RobustSolver.h:getNumLC"]}
{"id": "C20", "title": "Inlier count never exceeds the closure count and accounts for the graph size", "statement": "Without GNC getNumLCInliers() <= getNumLC() always; and right after an update that carried a loop-closure candidate, with no ignored prefix, size() equals odometry + special factors + getNumLCInliers().", "quantifier": "every call history", "why_tests_cant": "All histories.", "anchors": ["include/KimeraRPGO/outlier/Pcm.h:findInliers", "include/KimeraRPGO/outlier/Pcm.h:findInliersIncremental", "include/KimeraRPGO/outlier/Pcm.h:getNumLCInliers"]}
{"id": "C21", "title": "Odometry-only updates do not touch existing estimates", "statement": "An update carrying only odometry factors (and first landmark observations) never runs the optimizer and leaves every previously existing estimate unchanged; it only adds the supplied values.", "quantifier": "every reachable state and every such batch", "why_tests_cant": "All states and batches; also depends on the alignment setting.", "anchors": ["include/KimeraRPGO/outlier/Pcm.h:removeOutliers", "src/RobustSolver.cpp:update", "src/GenericSolver.cpp:addAndCheckIfOptimize"]}
{"id": "C22", "title": "Stored adjacency is the pairwise check, symmetric with zero diagonal", "statement": "While closures are only added, the matrix kept for a robot pair has one row per registered closure, is symmetric with zero diagonal, and entry (i,j), i<j, is exactly the verdict of the pairwise check of closure i against closure j made when j arrived.", "quantifier": "every sequence of updates and every trajectory", "why_tests_cant": "All histories.", "anchors": ["include/KimeraRPGO/outlier/Pcm.h:incrementAdjMatrix", "include/KimeraRPGO/outlier/Pcm.h:incrementLandmarkAdjMatrix"]}
{"id": "C23", "title": "Ignored prefixes stay out of the graph", "statement": "While a prefix is ignored, no loop closure having an endpoint with that prefix is in the graph, whatever is called in between.", "quantifier": "every call history after ignorePrefix(p) without revivePrefix(p)", "why_tests_cant": "All histories.", "anchors": ["src/RobustSolver.cpp:ignorePrefix", "include/KimeraRPGO/outlier/Pcm.h:ignoreLoopClosureWithPrefix", "include/KimeraRPGO/outlier/Pcm.h:buildGraphToOptimize"]}
{"id": "C24", "title": "Ignore and revive are inverse and idempotent", "statement": "ignorePrefix is idempotent, revivePrefix of a prefix that was not ignored before restores exactly the previous graph, getIgnoredPrefixes has no duplicates and is the set of prefixes ignored and not revived since.", "quantifier": "every reachable state and every sequence of ignore / revive calls", "why_tests_cant": "All sequences.", "anchors": ["include/KimeraRPGO/outlier/Pcm.h:ignoreLoopClosureWithPrefix", "include/KimeraRPGO/outlier/Pcm.h:reviveLoopClosureWithPrefix", "include/KimeraRPGO/outlier/Pcm.h:getIgnoredPrefixes"]}
{"id": "C25", "title": "removeLastLoopClosure removes in reverse chronological order", "statement": "Successive removeLastLoopClosure() calls return the edges of the registered pose-to-pose loop closures in exactly the reverse order of registration and then NULL.", "quantifier": "every update history and every number of removals", "why_tests_cant": "All histories.", "anchors": ["include/KimeraRPGO/outlier/Pcm.h:removeLastLoopClosure", "src/RobustSolver.cpp:removeLastLoopClosure"]}
{"id": "C26", "title": "removeLastLoopClosure is safe to call at any time", "statement": "removeLastLoopClosure() and removeLastLoopClosure(p,q) return NULL when there is no closure left to remove, in any interleaving of the two forms and of updates.", "quantifier": "every interleaving of the two removal forms and updates", "why_tests_cant": "Needs particular interleavings.", "anchors": ["include/KimeraRPGO/outlier/Pcm.h:removeLastLoopClosure"]}
{"id": "C27", "title": "Adding closures after removals works", "statement": "After any number of removals, a further update with a loop closure registers it and keeps the stored matrices the same size as the list of closures, with no matrix-size mismatch and no out-of-range access.", "quantifier": "every interleaving of removals and updates", "why_tests_cant": "Needs particular interleavings; in release builds the mismatch is silent.", "anchors": ["include/KimeraRPGO/outlier/Pcm.h:removeLastLoopClosure", "include/KimeraRPGO/outlier/Pcm.h:incrementAdjMatrix", "include/KimeraRPGO/outlier/Pcm.h:findInliers"]}
{"id": "C28", "title": "Landmark observations are never lost", "statement": "Every landmark observation supplied by the user stays registered: re-observing a known landmark adds to, and never discards, the earlier observations of it.", "quantifier": "every update history with landmarks", "why_tests_cant": "Depends on which keys are new in the same update.", "anchors": ["include/KimeraRPGO/outlier/Pcm.h:removeOutliers", "include/KimeraRPGO/outlier/Pcm.h:incrementLandmarkAdjMatrix"]}
{"id": "C29", "title": "Prior removal removes exactly the priors of one robot", "statement": "removePriorFactorsWithPrefix(p) removes every pose prior on a key with prefix p and nothing else, keeps the order of the remaining factors, and is idempotent.", "quantifier": "every reachable state, every prefix", "why_tests_cant": "All graphs.", "anchors": ["include/KimeraRPGO/outlier/Pcm.h:removePriorFactorsWithPrefix", "src/GenericSolver.cpp:removePriorsWithPrefix", "src/RobustSolver.cpp:removePriorFactorsWithPrefix"]}
{"id": "C30", "title": "Multi-robot alignment: reference robot and key set", "statement": "Frame alignment never adds or removes a key; the robot with the smallest prefix is expressed by its own odometry untransformed; every other robot with closures to it is its odometry moved by one common rigid transform, so relative poses inside a robot are its odometry.", "quantifier": "every reachable state, every set of robots, every averaging result", "why_tests_cant": "All states; external averaging is arbitrary.", "anchors": ["include/KimeraRPGO/outlier/Pcm.h:multirobotValueInitialization", "include/KimeraRPGO/outlier/Pcm.h:getRobotOdomValues"]}
{"id": "C31", "title": "Multi-robot alignment is exact for exact closures", "statement": "If every inlier closure between the reference robot and robot i is consistent with one common frame offset X, whatever direction each is expressed in, every candidate offset handed to the averaging equals X.", "quantifier": "every set of exact closures, both directions, every trajectory", "why_tests_cant": "Continuous family.", "anchors": ["include/KimeraRPGO/outlier/Pcm.h:multirobotValueInitialization"]}
{"id": "C32", "title": "Robot pairs are unordered keys", "statement": "ObservationId(p,q) and ObservationId(q,p) are equal and hash equally, distinct unordered pairs are unequal, and equality is an equivalence relation, so the closures of a robot pair are stored under one key whatever their direction.", "quantifier": "all pairs of characters and every hash function on characters", "why_tests_cant": "Hash function is implementation-defined.", "anchors": ["include/KimeraRPGO/utils/TypeUtils.h:ObservationId", "include/KimeraRPGO/utils/TypeUtils.h:hash"]}
{"id": "C33", "title": "Odometry never crosses robots", "statement": "A between factor treated as odometry joins index i to index i+1 of the same robot prefix (unless the 56-bit index overflows).", "quantifier": "all 64-bit keys", "why_tests_cant": "2^128 key pairs.", "anchors": ["include/KimeraRPGO/outlier/Pcm.h:removeOutliers"]}
{"id": "C34", "title": "Estimate keys are exactly the keys supplied", "statement": "calculateEstimate() has an entry for exactly the keys supplied by update/forceUpdate calls; optimization, removal, ignoring, alignment and temporary factors never add or remove a key, nor change the type of an entry.", "quantifier": "every call history, every optimizer behaviour", "why_tests_cant": "All histories; optimizer arbitrary.", "anchors": ["src/GenericSolver.cpp:updateValues", "src/RobustSolver.cpp:optimize", "include/KimeraRPGO/outlier/Pcm.h:removeOutliers"]}
{"id": "C35", "title": "Optimization does not change the factor graph", "statement": "Whether and how often the optimizer runs has no effect on getFactorsUnsafe(); two histories that differ only in the optimize flag or in the optimizer have the same graph (as long as neither fails).", "quantifier": "every history, every optimizer", "why_tests_cant": "Relational over histories.", "anchors": ["src/RobustSolver.cpp:optimize", "src/RobustSolver.cpp:update"]}
{"id": "C36", "title": "Temporary factors are isolated", "statement": "Temporary factors and values are handed to the optimizer but never enter getFactorsUnsafe() / calculateEstimate(); clearTempFactorsValues removes them completely; at any time they are exactly those added since the last replacement or clearing, in order.", "quantifier": "every call history", "why_tests_cant": "All histories.", "anchors": ["include/KimeraRPGO/GenericSolver.h:updateTempFactorsValues", "include/KimeraRPGO/GenericSolver.h:clearTempFactorsValues", "src/RobustSolver.cpp:optimize"]}
{"id": "C37", "title": "GNC weights line up with the graph and odometry is known inlier", "statement": "After every successful optimization with GNC, getGncWeights() has one entry per factor of the graph and getGncTempWeights() one per temporary factor, and the indices declared known inliers to GNC are exactly the positions of the odometry and special factors.", "quantifier": "every reachable state and every GNC result", "why_tests_cant": "All histories.", "anchors": ["src/RobustSolver.cpp:optimize", "src/RobustSolver.cpp:getGncKnownInliers"]}
{"id": "C38", "title": "Optimizing is memory safe", "statement": "Calling any public method never reads or writes the weight vector or the graph out of range.", "quantifier": "every call history and configuration", "why_tests_cant": "Out-of-range access in release builds is silent; needs particular histories.", "anchors": ["src/RobustSolver.cpp:optimize"]}
{"id": "C39", "title": "No-rejection mode keeps everything and works", "statement": "With setNoRejection every supplied factor is kept in arrival order, nothing is rejected, and the public methods work.", "quantifier": "every call history in no-rejection mode", "why_tests_cant": "All histories and verbosity settings.", "anchors": ["src/RobustSolver.cpp:update", "src/RobustSolver.cpp:optimize", "src/GenericSolver.cpp:addAndCheckIfOptimize", "include/KimeraRPGO/SolverParams.h:setNoRejection"]}
{"id": "C40", "title": "Failed updates are harmless", "statement": "If an update throws because a supplied key already has a value, the factor graph is unchanged.", "quantifier": "every reachable state and batch", "why_tests_cant": "Every failure point.", "anchors": ["src/RobustSolver.cpp:update", "include/KimeraRPGO/outlier/Pcm.h:removeOutliers", "src/GenericSolver.cpp:addAndCheckIfOptimize"]}
{"id": "C41", "title": "forceUpdate bypasses outlier rejection", "statement": "forceUpdate adds all the new factors without rejecting any, as documented.", "quantifier": "every state and batch", "why_tests_cant": "All batches.", "anchors": ["include/KimeraRPGO/RobustSolver.h:forceUpdate", "src/RobustSolver.cpp:forceUpdate"]}
{"id": "C42", "title": "The last parameter setter decides", "statement": "The effective outlier-rejection configuration is decided by the most recent setPcm*/setPcmSimple*/setNoRejection call and not by earlier ones.", "quantifier": "every sequence of setter calls", "why_tests_cant": "All sequences.", "anchors": ["include/KimeraRPGO/SolverParams.h:RobustSolverParams", "include/KimeraRPGO/outlier/Pcm.h:Pcm"]}
{"id": "C43", "title": "Saved information matrices round-trip", "statement": "The 21 (3D) / 6 (2D) information entries written for an edge determine the symmetric information matrix, and the block swap between GTSAM and g2o order is its own inverse; each pose value gives exactly one vertex record and each between factor exactly one edge record.", "quantifier": "every graph, every symmetric matrix", "why_tests_cant": "Continuous domain, all graphs.", "anchors": ["src/Logger.cpp:writeG2o"]}
{"id": "C44", "title": "Removing factors by index", "statement": "removeFactorsNoUpdate(I) nulls exactly the factors at the indices in I, keeps size() and all other factors, and the removed factors stay out of the graph.", "quantifier": "every reachable state and index set", "why_tests_cant": "All histories.", "anchors": ["src/GenericSolver.cpp:removeFactorsNoUpdate"]}
{"id": "C45", "title": "Disabled pairwise check keeps every closure", "statement": "With the pairwise check disabled (negative threshold) every registered loop closure between poses is in the graph.", "quantifier": "every history, both batch and incremental modes", "why_tests_cant": "All histories.", "anchors": ["include/KimeraRPGO/outlier/Pcm.h:findInliers", "include/KimeraRPGO/outlier/Pcm.h:findInliersIncremental", "include/KimeraRPGO/outlier/Pcm.h:parseAndIncrementAdjMatrix"]}
{"id": "C46", "title": "Results do not depend on how measurements are batched", "statement": "In non-incremental mode, sending the same odometry and loop closures (each in the same order) in one update, or divided over several updates and interleaved in any way such that odometry has reached the keys of a closure when it arrives, gives the same registered closures, the same adjacency matrices, the same selection and the same graph.", "quantifier": "every list of measurements, every division into updates and every interleaving", "why_tests_cant": "All splits.", "anchors": ["include/KimeraRPGO/outlier/Pcm.h:removeOutliers", "include/KimeraRPGO/outlier/Pcm.h:parseAndIncrementAdjMatrix", "include/KimeraRPGO/outlier/Pcm.h:findInliers"]}
{"id": "C47", "title": "GNC-only configuration is safe and keeps previous inliers", "statement": "With both PCM checks disabled and fixed previous inliers, over any history of updates without removals, ignores and landmarks, no access is out of range, and a re-optimization with no new closure uses exactly the odometry, special factors and the closures whose previous weight exceeded 0.5.", "quantifier": "every such history and every GNC result", "why_tests_cant": "All histories; GNC result arbitrary.", "anchors": ["src/RobustSolver.cpp:optimize"]}
{"id": "C48", "title": "Any noise model is handled without undefined behaviour", "statement": "An update with a measurement whose noise model is not Gaussian (for example with a robust kernel) either works or throws; it never performs an undefined operation.", "quantifier": "every state, every measurement with a noise model of any kind", "why_tests_cant": "All states and noise models.", "anchors": ["include/KimeraRPGO/outlier/Pcm.h:updateOdom", "include/KimeraRPGO/outlier/Pcm.h:isOdomConsistent", "include/KimeraRPGO/outlier/Pcm.h:areLoopsConsistent", "include/KimeraRPGO/utils/GeometryUtils.h:PoseWithCovariance"]}
{"id": "C49", "title": "Saved information matrices are in g2o order", "statement": "The information entries saved for a 3D edge are the upper triangle of the information matrix of the edge with the coordinates in g2o order (translation before rotation).", "quantifier": "every Gaussian noise model", "why_tests_cant": "Continuous domain.", "anchors": ["src/Logger.cpp:writeG2o"]}
{"id": "C50", "title": "The odometry check is the averaged mismatch around the loop", "statement": "A loop-closure candidate between two poses of one robot whose odometry is a chain is registered exactly if the odometry check is disabled or the mismatch between the product of the odometry measurements between the two poses and the closure, divided by the number of those measurements plus one, is below both odometry thresholds; the rotation is compared only if all odometry up to the later pose and the closure carry rotation information.", "quantifier": "every history of updates that returned normally, every chain length, both directions, every candidate, every threshold", "why_tests_cant": "All chains, positions and measurements.", "anchors": ["include/KimeraRPGO/outlier/Pcm.h:isOdomConsistent", "include/KimeraRPGO/outlier/Pcm.h:checkOdomConsistent", "include/KimeraRPGO/outlier/Pcm.h:updateOdom", "include/KimeraRPGO/utils/GraphUtils.h:getBetween"]}
{"id": "C51", "title": "The pairwise check is the averaged mismatch around the cycle", "statement": "Two registered closures in the same direction from one robot to another (or the same), whose odometry is a chain, are recorded as consistent exactly if the mismatch around the cycle formed by the two closures and the odometry of both robots between their end points, divided by the number of measurements in the cycle, is below both pairwise thresholds; the rotation is compared only if all odometry up to the later poses and both closures carry rotation information.", "quantifier": "every history of updates that returned normally, all positions on both chains, every threshold", "why_tests_cant": "All chains, positions and measurements.", "anchors": ["include/KimeraRPGO/outlier/Pcm.h:areLoopsConsistent", "include/KimeraRPGO/outlier/Pcm.h:checkLoopConsistent", "include/KimeraRPGO/outlier/Pcm.h:incrementAdjMatrix"]}
{"id": "C52", "title": "Landmark observations are compared around the observation cycle", "statement": "Two observations of one landmark are recorded as consistent exactly if the mismatch around the cycle formed by the two observations and the odometry between the observing poses, divided by the number of its measurements, is below both pairwise thresholds; the record has one row per observation, is symmetric and has a zero diagonal.", "quantifier": "every history, every landmark, observations by any robots and written in either direction", "why_tests_cant": "All histories.", "anchors": ["include/KimeraRPGO/outlier/Pcm.h:incrementLandmarkAdjMatrix", "include/KimeraRPGO/utils/GraphUtils.h:getBetween"]}
{"id": "C53", "title": "With covariance thresholds the checks use the Mahalanobis norm of the mismatch", "statement": "With the covariance-based methods (PCM2D, PCM3D) a loop-closure candidate within one robot is accepted by the odometry check exactly if the Mahalanobis norm of the mismatch between odometry and closure, under the covariance of that mismatch propagated to first order from the covariances of all measurements involved, is below the odometry threshold; likewise for the pairwise check of two closures and the cycle they form.", "quantifier": "every history of updates that returned normally, every chain length, position, closure and positive definite covariance", "why_tests_cant": "Continuous domain of poses and covariances; all chains.", "anchors": ["include/KimeraRPGO/outlier/Pcm.h:isOdomConsistent", "include/KimeraRPGO/outlier/Pcm.h:areLoopsConsistent", "include/KimeraRPGO/utils/GeometryUtils.h:PoseWithCovariance::inverse", "include/KimeraRPGO/utils/GeometryUtils.h:PoseWithCovariance::compose", "include/KimeraRPGO/utils/GeometryUtils.h:PoseWithCovariance::between"]}
{"id": "C54", "title": "Translation thresholds bound translation errors, rotation thresholds rotation errors", "statement": "With the simple methods (PCM_Simple2D, PCM_Simple3D) the translation threshold is compared with the length of the translation part of the averaged mismatch and the rotation threshold with the size of its rotation part, in two and in three dimensions.", "quantifier": "every history, every closure, every threshold, both dimensions", "why_tests_cant": "Continuous domain; both dimensions.", "anchors": ["include/KimeraRPGO/utils/GeometryUtils.h:PoseWithNode::avg_trans_norm", "include/KimeraRPGO/utils/GeometryUtils.h:PoseWithNode::avg_rot_norm", "include/KimeraRPGO/utils/GeometryUtils.h:getRotationDim", "include/KimeraRPGO/outlier/Pcm.h:checkOdomConsistent"]}
{"id": "C55", "title": "Well-formed updates are processed to the end", "statement": "A history of update calls in which every key is given a value once, every between factor has Gaussian noise and every odometry factor starts at a pose known by then is processed to the end: no call throws and none runs an undefined operation, whichever closures are rejected and whether or not calls optimize.", "quantifier": "every finite history of well-formed updates, every configuration with outlier rejection, every optimizer result", "why_tests_cant": "All histories and all closures; a test covers one.", "anchors": ["include/KimeraRPGO/outlier/Pcm.h:removeOutliers", "include/KimeraRPGO/outlier/Pcm.h:updateOdom", "include/KimeraRPGO/outlier/Pcm.h:multirobotValueInitialization", "src/RobustSolver.cpp:update", "src/RobustSolver.cpp:optimize"]}
{"id": "C56", "title": "The GNC inlier count", "statement": "With GNC, after a call that includes an optimization getNumLCInliers() is the number of closures GNC accepted (weight above one half), and at all times it does not exceed getNumLC().", "quantifier": "every history of managed calls, every configuration with outlier rejection and GNC, every weight vector GNC may return", "why_tests_cant": "All weight vectors and all histories; a test covers one.", "anchors": ["src/RobustSolver.cpp:optimize", "include/KimeraRPGO/RobustSolver.h:getNumLCInliers"]}
{"id": "C57", "title": "Re-optimizing with fixed previous inliers", "statement": "With fix_prev_inliers, an optimization that follows calls without new closures uses exactly the odometry, the other non-closure factors, the closures that the previous optimization had accepted and the temporary factors; no exception is thrown because closures were rejected or removed earlier.", "quantifier": "every history, every configuration with outlier rejection and fixed previous inliers", "why_tests_cant": "All histories and all selections of closures; a test covers one.", "anchors": ["src/RobustSolver.cpp:optimize"]}
{"id": "C58", "title": "The graph does not depend on the initial guess", "statement": "Two histories that hand over the same factors in the same order, with values for the same keys, end with the same factor graph, the same registered closures and the same counts, whatever values are supplied, whatever the optimizer returns, whether or not the calls optimize and whatever updateValues overwrites; in particular moving all supplied poses by one rigid transformation changes nothing in the graph.", "quantifier": "every pair of histories with the same factors, every choice of values, every optimizer outcome, every configuration with outlier rejection", "why_tests_cant": "All histories, all initial guesses and all optimizer outcomes; a test compares two runs.", "anchors": ["src/RobustSolver.cpp:update, forceUpdate", "include/KimeraRPGO/outlier/Pcm.h:updateOdom, parseAndIncrementAdjMatrix, isOdomConsistent, areLoopsConsistent"]}
{"id": "C59", "title": "What the estimate is after a call", "statement": "After update, forceUpdate, a removal, ignoring or reviving, calculateEstimate() is the previous estimate completed by the supplied values if the call does not optimize, and otherwise the result of one optimizer run (GNC if enabled) on the whole resulting graph and the temporary factors, started from those values (with frame alignment: from the estimate which the same call without optimization leaves); update optimizes exactly if asked to and if the batch contains a loop-closure candidate or a factor that is not a between factor (without outlier rejection: unless the batch is empty or a single factor on two keys with one value); updateValues replaces exactly the entries it is given.", "quantifier": "every state, every call that returns normally, every configuration without fixed previous inliers (frame alignment: see C30, C31, C66), every optimizer outcome", "why_tests_cant": "All states, batches and optimizer outcomes; a test fixes one optimizer and one graph.", "anchors": ["src/RobustSolver.cpp:optimize, update, forceUpdate", "src/GenericSolver.cpp:updateValues, addAndCheckIfOptimize"]}
{"id": "C60", "title": "What the g2o example programs save", "statement": "For the same file and thresholds, RpgoReadG2o and RpgoReadG2oIncremental (not incremental, without frame alignment) save the same edges in the same order and vertices for the same keys, although one passes the file in one update and the other adds closures one by one; the saved vertices are the result of optimizing the saved edges; both programs come to their end on a file with one vertex per key and Gaussian noise; the arguments that would switch the checks off are refused together with incremental selection.", "quantifier": "every file whose steps form a chain per robot and whose closures join keys of these chains, every pose group, all thresholds, every optimizer outcome", "why_tests_cant": "All files, thresholds and optimizer outcomes; a test runs the programs on a few data sets and cannot compare all interleavings of closures and odometry.", "anchors": ["examples/RpgoReadG2o.cpp:Simulate, main", "examples/RpgoReadG2oIncremental.cpp:SimulateIncremental, main", "src/RobustSolver.cpp:update, saveData"]}
{"id": "C61", "title": "What the log files say", "statement": "Logging never changes what the solver does. With logging on, rpgo_status.csv has one row per update that may optimize, with the size of the graph and the numbers of closures and inliers right after that call; outlier_rejection_status.txt has one row per update with factors, with the closures and the inliers of the pairwise check; result.g2o and gnc_weights.csv in the log folder hold graph, estimate and weights of the solver; for every robot pair with closures there is exactly one matrix file and it holds the pair's matrix. Without logging no log file is written. saveData writes the current graph, estimate and weights to its folder and no log file.", "quantifier": "every history of calls that return normally, all parameters, every optimizer outcome and iteration order of the maps, every pose group", "why_tests_cant": "All interleavings of updates, removals and other calls; a test compares the files after a few fixed calls.", "anchors": ["src/RobustSolver.cpp:update, forceUpdate, saveData", "include/KimeraRPGO/outlier/Pcm.h:removeOutliers, saveAdjacencyMatrix, logSpinStatus"]}
{"id": "C62", "title": "Graphs read from files", "statement": "Reading a MatrixMarket file into a CGraphIO object gives exactly the undirected graph the file describes: two vertices are joined if some entry names them in either order (and its value is above the given strength, if the file has values), loops and repetitions do not count, the value array is parallel to the edge array, the reported degrees and edge count are those of the graph, and the clique finders give on it what they give on the matrix of the graph. A call that returns true has read the file; a malformed file is refused.", "quantifier": "every file, every strength bound, every lower bound and output vector given to the finders, every object", "why_tests_cant": "The order of the entries decides the order of the neighbour lists; all entry lists of all sizes.", "anchors": ["include/KimeraRPGO/max_clique_finder/graphIO.cpp:readGraph, ReadMatrixMarketAdjacencyGraph, ReadEigenAdjacencyMatrix, CalculateVertexDegrees, getFileExtension", "include/KimeraRPGO/max_clique_finder/findClique.cpp:maxClique"]}
{"id": "C63", "title": "Trajectory files per robot", "statement": "GenerateTrajectories writes one file per robot character that occurs among the vertices, and its rows are the poses of exactly that robot's vertices, each once, by ascending index; every vertex is in exactly one file.", "quantifier": "every set of vertices, signed and unsigned char", "why_tests_cant": "All sets of keys of all robots; tests do not run the program.", "anchors": ["examples/GenerateTrajectories.cpp:main"]}
{"id": "C64", "title": "Which closures of a robot pair are accepted", "statement": "After every successful call, any two accepted closures between the same two robots agree with each other according to the pairwise check, each is accepted once, there is no larger set of agreeing closures, and every rejected closure disagrees with an accepted one; a single closure of a pair is accepted; adding a closure never lowers the number of accepted ones.", "quantifier": "every history of successful calls including removals, batch and incremental selection, every configuration with the pairwise check, every robot pair", "why_tests_cant": "Whether the greedy clique search is right depends on the shape of the whole consistency graph; tests use graphs where agreement is transitive.", "anchors": ["include/KimeraRPGO/outlier/Pcm.h:findInliers, findInliersIncremental, incrementAdjMatrix, removeLastLoopClosure", "include/KimeraRPGO/max_clique_finder/findCliqueHeu.cpp:maxCliqueHeu, maxCliqueHeuIncremental"]}
{"id": "C65", "title": "What is accepted between two robots depends only on these two robots", "statement": "As long as the calls return normally and no closure between the two robots is removed, the closures registered and accepted between two robots, and their consistency matrix, are determined by the odometry of these two robots and the closures supplied between them (with incremental selection also by how these are grouped into calls): other robots' odometry, closures, landmarks and values, removals for other pairs, other factors, guesses, optimizer results and optimization flags do not matter. Dropping everything about other robots from every update leaves the pair as it is.", "quantifier": "every two histories of successful calls that agree on the two robots, batch and incremental selection, both pose types; the odometry of the two robots is a chain that reaches the closures' keys when they arrive, nothing is asked of other robots", "why_tests_cant": "Interference between robots would show only for particular combinations of teams, orders of arrival and pairs; tests run one team.", "anchors": ["include/KimeraRPGO/outlier/Pcm.h:removeOutliers, findInliers, findInliersIncremental, incrementConsistency, isOdomConsistent, areLoopsConsistent"]}
{"id": "C66", "title": "Frame alignment averages the accepted closures with the documented weights", "statement": "When an update aligns robot frames, another robot is moved by the result of averaging in which every accepted closure between it and the reference robot counts once, as the distance between the tried offset and the offset the closure suggests, with rotation errors in units of 0.1 rad and translation errors in units of 0.5 m; with method L2 no closure is discounted and the result minimises the sum; with GNC the threshold is at the configured probability; closures that agree exactly give exactly their offset.", "quantifier": "every reachable fleet history with alignment on, every set of accepted closures in either direction, both pose types, every optimizer that does what it is asked", "why_tests_cant": "Weights show only in how disagreeing closures are traded off; tests use closures that agree.", "anchors": ["include/KimeraRPGO/outlier/Pcm.h:gncRobustPoseAveraging, multirobotValueInitialization"]}
{"id": "C67", "title": "The optimizers run with the settings last made", "statement": "An optimization uses GNC only if one of its setters was called, and then with the threshold (as cost or as probability), number of iterations, step and tolerances of the last such call and on Levenberg-Marquardt with the damping last set; frames are aligned with the method and probability last set; the switches turned on by gncFixInliers and gncBiasOdom stay on.", "quantifier": "every sequence of setter calls, every history, every call that optimizes", "why_tests_cant": "Tests set parameters once, in one order.", "anchors": ["include/KimeraRPGO/SolverParams.h:setGncInlierCostThresholdsAtProbability, setGncInlierCostThresholds, gncFixInliers, gncBiasOdom, setLmDiagonalDamping, setMultiRobotAlignMethod, setMultiRobotGncAlignProbability", "src/RobustSolver.cpp:optimize"]}
{"id": "C68", "title": "Removing the closures just added undoes the addition", "statement": "After an update, calling removeLastLoopClosure() once for every closure it registered leaves every robot pair with exactly the closures it had before, the same ones accepted, and, if the update supplied only closures, the same factors in the graph; the same holds for a pair after any calls that added closures behind those it had and removed them again.", "quantifier": "every history, every update, every number of closures and robot pairs, every interleaving of additions and removals", "why_tests_cant": "The search for consistent closures runs again on a matrix that was grown and shrunk; tests remove closures and look at counts.", "anchors": ["include/KimeraRPGO/outlier/Pcm.h:removeLastLoopClosure, findInliers, findInliersIncremental"]}
{"id": "C69", "title": "Which observations of a landmark are accepted", "statement": "A single observation of a landmark is accepted. Of several, the accepted ones agree pairwise, no larger set of observations agrees, every rejected one disagrees with an accepted one, and if all agree all are accepted, whatever the selection mode and the switches of the pairwise check. Calls that bring no observation of the landmark do not change which of its observations are accepted.", "quantifier": "every history of calls, every landmark, every number of observations, every later call (closures added or removed, robots ignored or revived)", "why_tests_cant": "The observations are selected anew after each update together with all closures; whether the selection is a largest agreeing set depends on the pattern of agreement among arbitrarily many observations.", "anchors": ["include/KimeraRPGO/outlier/Pcm.h:incrementLandmarkAdjMatrix, findInliers, findInliersIncremental"]}
{"id": "C70", "title": "What is accepted does not depend on the order in which hash tables are visited", "statement": "Two solvers that receive the same calls register and accept the same closures and landmark observations, store the same consistency matrices, return the same counts and hold the same factors (odometry and priors in the same order, selected closures and observations up to order), in whatever order their hash tables of robot pairs and landmarks are visited and whatever their optimizers return. With relative factors only, this also holds for different initial values.", "quantifier": "every history of calls, every pair of visiting orders (any permutation at each visit), every pair of optimizers, settings and flags", "why_tests_cant": "The visiting order of an unordered map depends on the standard library and on the insertion history; a test observes one.", "anchors": ["include/KimeraRPGO/outlier/Pcm.h:buildGraphToOptimize, findInliers, findInliersIncremental, parseAndIncrementAdjMatrix"]}
{"id": "C71", "title": "Going on after an exception", "statement": "A caller that catches an exception and goes on has a solver in a state it could have reached without the exception: after an update whose optimization threw, exactly the state of the update without optimization; after an update refused because of a known or repeated key, exactly the state of an update with the values before that key and no factors (without outlier rejection: with the factors). What a solver holds, accepts and counts after any number of such exceptions, failed averaging and failed queries is what it would be had nothing failed.", "quantifier": "every history, every call, every optimizer failing at any calls", "why_tests_cant": "The failures can happen at any call of any history and in any combination; tests try the ones that do not happen.", "anchors": ["src/RobustSolver.cpp:update, forceUpdate, optimize", "include/KimeraRPGO/outlier/Pcm.h:removeOutliers", "src/GenericSolver.cpp:addAndCheckIfOptimize"]}
{"id": "C72", "title": "What is accepted of a landmark depends only on it and on its observer", "statement": "Which observations of a landmark are registered, how they are judged against each other and which are accepted depends only on the observations themselves, in their order, and on the odometry of the robot that makes them. How they were divided into calls, further odometry, everything supplied about other robots and other landmarks, the closures, removals, ignored robots, the initial values, the optimizers and their settings make no difference.", "quantifier": "every two histories with the same observations of the landmark and compatible odometry of its observer; every environment", "why_tests_cant": "It compares runs with any two histories that share one landmark; tests compare a run with a stored result.", "anchors": ["include/KimeraRPGO/outlier/Pcm.h:parseAndIncrementAdjMatrix, incrementLandmarkAdjMatrix, updateOdom, findInliers"]}
{"id": "C73", "title": "The order in which messages about different robots arrive makes no difference", "statement": "If two histories supply the same odometry of every robot, the same closures of every pair of robots and the same observations of every landmark, each in the same order but interleaved differently, then the graphs hold the same factors, the same keys have estimates, the same closures and observations are registered, judged and accepted, and the same numbers of closures and inliers are reported. In particular two updates in a row that are about different robots, pairs and landmarks can be swapped anywhere in a history.", "quantifier": "every two histories with the same parts; every pair of adjacent updates; every environment, whatever the optimizers return", "why_tests_cant": "It compares all interleavings of the messages of any number of robots; a test fixes one or two schedules.", "anchors": ["include/KimeraRPGO/outlier/Pcm.h:removeOutliers, parseAndIncrementAdjMatrix, buildGraphToOptimize, updateOdom", "src/RobustSolver.cpp:update, forceUpdate"]}
{"id": "C74", "title": "A leading group of agreeing measurements is accepted, whole and alone, whatever the outliers are", "statement": "Suppose that among the registered closures of a pair of robots there is a group any two of which agree, none of which agrees with a closure outside of it, and that is larger than every set of agreeing closures outside of it. Then exactly the closures of this group are accepted, each once, however many other closures there are, however these agree among themselves, in whatever order and batches they arrived, in both selection modes and after removals. In particular, closures that measure exactly what odometry and one offset between the two robots give form such a group unless outliers agree with one of them or with equally many of each other. The same holds of the observations of a landmark.", "quantifier": "every history of calls that returned normally; every pair of robots or landmark; every number and structure of outliers", "why_tests_cant": "It quantifies over all sets of outliers, all agreement graphs among them and all arrival orders; tests use a few injected outliers.", "anchors": ["include/KimeraRPGO/outlier/Pcm.h:findInliers, findInliersIncremental", "include/KimeraRPGO/max_clique_finder/findCliqueHeu.cpp:maxCliqueHeu, maxCliqueHeuIncremental"]}
{"id": "C75", "title": "Which of two closures arrived first matters only through their directions, through turning, and through ties", "statement": "For the node-count checks: if the two distances are unchanged by inversion and by conjugation (rotation angles, and lengths of robots that do not turn), and two closures lead in the same direction, the pairwise check gives the same verdict whichever of them is the earlier one. Consequently two solvers that receive the same odometry of two robots and the same closures from the one to the other, in different orders and differently divided into calls, register the same closures; they accept equally many of them if agreement is transitive, and the same ones if some group of agreeing closures leads. None of these conditions can be dropped: closures in opposite directions, robots that turn, and two equally large groups each give a case in which the order of arrival decides what is accepted.", "quantifier": "every pair of histories of calls that returned normally; every pair of robots; every order of arrival; both selection modes", "why_tests_cant": "It compares all pairs of histories that are rearrangements of each other; a test runs one order.", "anchors": ["include/KimeraRPGO/outlier/Pcm.h:areLoopsConsistent, incrementAdjMatrix, findInliers, findInliersIncremental"]}
{"id": "C76", "title": "A closure that is received again counts again", "statement": "A registered closure agrees with every copy of itself. If an accepted closure of a leading group is received once more, it is accepted (and put into the graph) once more and nothing else changes for the pair (distances and directions as for C75). Copies count as independent evidence: if the copies of one closure agree with no other closure of the pair and outnumber every set of agreeing ones among the others, exactly they are accepted; so re-sending a rejected closure can displace the accepted ones.", "quantifier": "every history of calls that returned normally; every pair of robots; every number of copies", "why_tests_cant": "It ranges over all numbers of repetitions in all histories; tests do not re-send closures.", "anchors": ["include/KimeraRPGO/outlier/Pcm.h:areLoopsConsistent, parseAndIncrementAdjMatrix, findInliers"]}
{"id": "C77", "title": "Values may be supplied ahead of their factors, except those by which the factors are recognized", "statement": "With outlier rejection: a call that only brings values, followed by a call with factors and further values, has exactly the effect of a single call with the factors and all the values (same solver state and same result, or same exception), whether or not the calls ask for optimization, provided none of the values supplied ahead belongs to the pose a consecutive-key between factor leads to, or to either end of a landmark observation. Without rejection this holds for all values if the calls do not ask for optimization, for two or more factors, and for forced updates. The exceptions are needed: an odometry edge whose end's value came earlier is silently dropped from the graph, a landmark's first observation is counted as an inlier only if the landmark's value came earlier, a later observation from a pose whose value comes with it discards the earlier observations, and without rejection a single edge leads to an optimization only if its value came earlier.", "quantifier": "every solver state; every list of factors and of values; all parameters", "why_tests_cant": "It compares, for every state and every division of the values, two sequences of calls; tests always supply values together with the factors.", "anchors": ["include/KimeraRPGO/outlier/Pcm.h:removeOutliers", "src/GenericSolver.cpp:addAndCheckIfOptimize", "src/RobustSolver.cpp:update, forceUpdate"]}
{"id": "C78", "title": "Hop counts do not overflow", "statement": "For the node-count checks: as long as fewer than 357 913 941 odometry factors have been received, no addition or subtraction of hop counts in any call overflows a 32-bit int (which would be undefined), whatever calls were made before and whether or not they threw. The stored hop counts lie between 0 and the number of odometry factors received.", "quantifier": "every history of calls, including calls that threw; all parameters; every behaviour on overflow", "why_tests_cant": "The bound concerns histories of hundreds of millions of factors and the absence of undefined behaviour in all shorter ones.", "anchors": ["include/KimeraRPGO/utils/GeometryUtils.h:PoseWithNode::compose, PoseWithNode::between", "include/KimeraRPGO/utils/GraphUtils.h:Trajectory::getBetween", "include/KimeraRPGO/outlier/Pcm.h:updateOdom, isOdomConsistent, areLoopsConsistent, incrementLandmarkAdjMatrix"]}
{"id": "C79", "title": "Optimization can be postponed", "statement": "From any state, forceUpdate with some factors and values does exactly what update with the same factors and values without optimization followed by an empty forceUpdate does: the same state, the same exception. update with optimization equals forceUpdate if what was supplied demands an optimization (a loop-closure candidate or another factor that is not between poses; without outlier rejection anything but one factor with one new value), and update without optimization otherwise, unless status logging is on. Removing priors can be split in the same way. If the optimizers return their own result unchanged when started from it, and previous inliers are not fixed, forcing a second optimization changes neither estimate nor graph.", "quantifier": "all states (reachable ones for the last claim), factors, values, parameters, optimizers", "why_tests_cant": "An equality of outcomes from every state, for arbitrary optimizers.", "anchors": ["src/RobustSolver.cpp:update, forceUpdate, optimize, removePriorFactorsWithPrefix"]}
{"id": "C80", "title": "Names of robots and landmarks do not matter", "statement": "Exchange the prefixes of robots and landmarks by any permutation, in all factors, values and other arguments and in the list of landmark prefixes. If frame alignment is off, the optimizers do not look at names, no factor starts at the last of the 2^56 pose numbers of a robot and, where plain char is signed, ASCII prefixes stay ASCII and others do not become so, then the renamed calls all return if and only if the original calls do. The resulting solvers show the same factors in the same order, the same values, weights, counts of closures and inliers and ignored prefixes, up to names. Every further call ends in the same way: with the same result up to names, the same exception, or the same undefined behaviour.", "quantifier": "all permutations of the 256 prefixes, all parameters, all histories of calls that return, all further calls", "why_tests_cant": "All permutations and all histories; a test uses a few prefixes.", "anchors": ["include/KimeraRPGO/outlier/Pcm.h:removeOutliers, parseAndIncrementAdjMatrix, areLoopsConsistent, removePriorFactorsWithPrefix", "src/RobustSolver.cpp:update, ignorePrefix"]}
{"id": "C81", "title": "A solver restarted from the graph and estimate of another one accepts the same closures", "statement": "Let a solver with closure rejection be used without removals of closures, without landmarks and without editing its graph from outside, on robots whose odometry is a chain that has reached each closure when it arrives. Suppose that no accepted closure joins a pose to the next one and that the accepted closures of each pair agree with each other. Then a new solver with the same parameters that is given, in one call, the graph of the first one and values of the same keys ends with a graph of the same factors and values of the same keys. For pairs without ignored robots it has registered exactly the closures that the first one had accepted and accepts all of them; it has forgotten the rejected ones, and those of ignored robots. If the call does not ask for optimization, and without frame alignment, its estimate is that of the first one.", "quantifier": "all parameters with closure rejection and pairwise check, all such histories, all estimates handed on", "why_tests_cant": "All histories; a test restarts from a few graphs.", "anchors": ["include/KimeraRPGO/outlier/Pcm.h:removeOutliers, parseAndIncrementAdjMatrix, findInliers, buildGraphToOptimize", "src/RobustSolver.cpp:update, getFactorsUnsafe, calculateEstimate"]}
{"id": "C82", "title": "The unit of length does not matter", "statement": "Let all translations in measurements and initial values be multiplied by a positive number, the noise models be converted accordingly, and, with PCM_Simple3D, both translation thresholds be multiplied by it too. Provided the optimizer (and, if frames are aligned, the averaging) gives the converted result for the converted problem and hash tables are traversed in the corresponding order, every history of calls leaves a solver with the converted graph, estimate and temporary data and the same counts, weights and ignored robots, and every further call returns the same, raises the same exception, or is undefined as before. With PCM2D and PCM3D this holds with unchanged thresholds.", "quantifier": "all positive factors, all pose groups with such a conversion (rigid motions in particular), all parameters with the methods named, all histories including calls that throw, all next calls", "why_tests_cant": "All histories and factors; a test compares a few runs in two units.", "anchors": ["include/KimeraRPGO/utils/GeometryUtils.h:avg_trans_norm, avg_rot_norm, mahalanobis_norm, compose, between", "include/KimeraRPGO/outlier/Pcm.h:checkOdomConsistent, checkLoopConsistent, gncRobustPoseAveraging", "include/KimeraRPGO/SolverParams.h:setPcmSimple3DParams"]}
{"id": "C83", "title": "With the simple methods the covariances do not influence what is accepted", "statement": "With PCM_Simple2D or PCM_Simple3D, two solvers that get the same measurements with different covariances register and accept the same closures and landmark observations, store the same matrices, hold the same measurements (up to the order of the selected ones), know the same keys and return the same counts, whatever the optimizer makes of the covariances, whatever the initial values, and in whatever order hash tables are traversed; provided the rotation part of a covariance is NaN for one exactly if it is for the other, each robot's odometry is a chain that has reached each closure when it arrives, and each landmark is observed by one robot.", "quantifier": "all parameters with the simple methods, all histories, all pairs of assignments of covariances to measurements, all optimizers", "why_tests_cant": "All covariances and histories; a test tries a few covariances.", "anchors": ["include/KimeraRPGO/utils/GeometryUtils.h:PoseWithNode", "include/KimeraRPGO/outlier/Pcm.h:removeOutliers, isOdomConsistent, areLoopsConsistent", "src/RobustSolver.cpp:update, getNumLC, getNumLCInliers"]}
{"id": "C84", "title": "The part of the graph about some of the robots is the graph they would get on their own", "statement": "Take a solver with closure rejection fed, without removals and without editing its graph from outside, by robots whose odometry is a chain that has reached each closure and observation when it arrives, where each landmark is observed by one robot. Choose some of the robots with their landmarks. A second solver with the same parameters that is given only what concerns them (the same calls without the other factors and values) ends with exactly the factors of the first one's graph all of whose keys are theirs, with estimates for exactly their keys among those of the first one, with the same registered and accepted closures and the same matrix for each two of these robots, the same observations of their landmarks, and no more closures counted, whatever the other robots measured, also of them. If nothing was measured between these robots and the others, the graph consists of the graphs of the two fleets and the number of closures is the sum. The positions in the estimate may differ, since optimization moves everything together.", "quantifier": "all parameters with closure rejection, all sets of robots and landmarks, all such histories, values, optimizers and orders of visiting hash tables", "why_tests_cant": "All fleets and all histories; a test splits a few.", "anchors": ["include/KimeraRPGO/outlier/Pcm.h:removeOutliers, parseAndIncrementAdjMatrix, findInliers, buildGraphToOptimize, ignorePrefix", "src/RobustSolver.cpp:update, getFactorsUnsafe, calculateEstimate, getNumLC"]}
{"id": "C85", "title": "Exactly which updates fail, and how", "statement": "An update without optimization fails in exactly two situations. If one of the new values has a key that already has a value, or that occurs twice among them, the call throws the exception about an existing key. Otherwise, if its factors contain odometry of a robot that had none before and whose first key has no pose as value, the call throws the exception about a missing key or, if that key has a value that is not a pose, about a wrong type. In all other cases it returns, whatever the measurements are. This holds with closure rejection, if all factors so far have a usable covariance and closures and observations named robots that get odometry, and as long as removals left each pair of robots that has had a closure with at least two. With frame alignment it holds if averaging returns results, values supplied for poses are poses, and every pose named by an odometry factor, or from which a landmark is observed (by one robot each), is given a value. Without closure rejection the only exception is the one about an existing key, and a batch consisting of one null factor dereferences it; the update function of the base class fails in addition if an index to remove is out of range. An update that optimizes, if the optimizers return results, fails in these two situations and in one more: a temporary value has a key that has a value by then; it then throws the exception about an existing key. So do prior removal with optimization, ignoring and reviving, for which this is the only failure. (Previous inliers are not fixed, and either GNC runs or the number of closures is bounded as in C38.)", "quantifier": "all parameters, histories of calls that return, batches of factors and values, and optimizers", "why_tests_cant": "All histories and batches; a test makes some calls fail.", "anchors": ["include/KimeraRPGO/outlier/Pcm.h:removeOutliers, updateOdom", "src/RobustSolver.cpp:update, updateBatch"]}
{"id": "C86", "title": "Incremental selection changes only which closures are accepted, and not if one group leads", "statement": "Two solvers that are given the same calls, one with incremental selection of closures and the other without, register the same closures with the same verdicts about which agree, register and accept the same observations of landmarks, hold values for the same keys and report the same number of loop closures. They accept the same closures of a pair of robots if at most one is registered or if one group of agreeing closures leads (none of it agrees with a closure outside of it and no group outside is as large); they accept the same number if agreement is transitive. If one group leads for every pair the two graphs hold the same factors, up to order. Odometry forms chains, closures and observations name poses odometry has reached, and nothing is removed.", "quantifier": "all parameters, measurements, values, pairs of optimizers, iteration orders and histories of calls without removals", "why_tests_cant": "All histories, and two configurations; a test runs one configuration on one dataset.", "anchors": ["include/KimeraRPGO/outlier/Pcm.h:findInliers, findInliersIncremental", "include/KimeraRPGO/max_clique_finder/findCliqueHeu.cpp:maxCliqueHeu, maxCliqueHeuIncremental"]}
{"id": "C87", "title": "When prefixes are ignored and revived makes no difference, only which are ignored in the end", "statement": "Two histories of calls that differ only in when prefixes are ignored and revived register the same closures and observations with the same verdicts, accept the same ones and report the same number of loop closures and, without GNC, of inliers. If the same prefixes are ignored at their ends, the two solvers hold the same graph: it is the graph of a solver to which nothing was ignored before the end. Closures received while their robot is ignored are not lost. Outlier rejection is used, values are supplied for the starts of trajectories, and the calls are those of the public interface.", "quantifier": "all parameters with outlier rejection, measurements, values, optimizers, iteration orders and pairs of histories of calls that succeed and differ only in calls that ignore and revive prefixes", "why_tests_cant": "All pairs of histories; a test interleaves a few calls.", "anchors": ["src/RobustSolver.cpp:ignorePrefix, revivePrefix", "include/KimeraRPGO/outlier/Pcm.h:ignoreLoopClosureWithPrefix, reviveLoopClosureWithPrefix, buildGraphToOptimize"]}
{"id": "C88", "title": "What higher thresholds change", "statement": "Two solvers are given the same calls; the thresholds of the second are not lower than those of the first, none of which is negative (a negative odometry threshold of the second, which disables that check, is as good). Then the closures the first registers are among those the second registers, in the same order; closures and observations that agree with each other in the first agree in the second; both register the same observations of landmarks; both hold values for the same keys; and the second reports no fewer loop closures. If with the higher thresholds agreement is transitive, the second accepts no fewer closures of a pair of robots, and no fewer observations of a landmark. Odometry forms chains, closures and observations name poses odometry has reached, and nothing is removed.", "quantifier": "all parameters, pairs of thresholds, measurements, values, optimizers, iteration orders and histories of calls without removals", "why_tests_cant": "All histories, and two configurations; a test runs one configuration on one dataset.", "anchors": ["include/KimeraRPGO/outlier/Pcm.h:isOdomConsistent, areLoopsConsistent, incrementLandmarkAdjMatrix, findInliers", "include/KimeraRPGO/max_clique_finder/findCliqueHeu.cpp:maxCliqueHeu"]}
{"id": "C89", "title": "Ignoring a robot is as good as never having received its loop closures", "statement": "Take a solver and the prefixes it ignores at the end. Another solver is given the same calls, but never the loop closures between poses that touch one of these prefixes, and is never asked to ignore or revive anything. Then both graphs hold the same factors and both have values for the same keys; between robots that are not ignored the same closures are registered, with the same matrix, and the same are accepted; and the same observations of landmarks are registered and accepted. Odometry forms chains, closures and observations name poses odometry has reached, each landmark has one observer, and nothing is removed. Odometry, priors and landmark observations of an ignored robot stay in the graph.", "quantifier": "all parameters, sets of ignored prefixes, measurements, values, optimizers, iteration orders and histories of calls without removals", "why_tests_cant": "All histories, and two runs; a test ignores one robot at one moment.", "anchors": ["include/KimeraRPGO/outlier/Pcm.h:ignoreLoopClosureWithPrefix, buildGraphToOptimize, parseAndIncrementAdjMatrix", "src/RobustSolver.cpp:ignorePrefix, revivePrefix"]}
{"id": "C90", "title": "With outlier rejection, edits of the graph from outside last only until the graph is built anew", "statement": "With outlier rejection, calls that only edit the factor graph (removing factors by index, removing the last factor, removing priors through the generic solver) leave no trace at all once a call has built the graph anew: an update with at least one factor, removing priors, ignoring or reviving a prefix, or the removal of a loop closure that found one. If every edit is followed by such a call before any other, the history without the edits leaves the solver in exactly the same state. In between, an optimization can carry the edit into the estimate; and without outlier rejection edits last.", "quantifier": "all parameters, optimizers, iteration orders, states, sequences of edits (also failing ones) and histories of calls", "why_tests_cant": "All states and sequences of edits; a test removes one factor and looks at the graph at once.", "anchors": ["src/GenericSolver.cpp:removeFactorsNoUpdate, removeLastFactor, removePriorsWithPrefix", "include/KimeraRPGO/outlier/Pcm.h:buildGraphToOptimize", "src/RobustSolver.cpp:update, ignorePrefix, removePriorFactorsWithPrefix"]}
{"id": "C91", "title": "The numbers of poses and landmarks do not matter: robots may start counting anywhere", "statement": "Giving the poses of each robot (and the landmarks) other numbers, and the robots other names, changes nothing but the numbers and names shown: graph, estimate, counts, weights, ignored prefixes and the outcome of every further call correspond, provided that in each given between factor the key that followed the first key still follows it, and that number 0 stays number 0 or each landmark is observed by one robot only. In particular robots may start counting at any number. With multirobot frame alignment the names must stay, and two failing calls may raise different exceptions.", "quantifier": "all parameters, optimizers that do not look at names, corresponding iteration orders, renumberings and histories of calls", "why_tests_cant": "All renumberings and histories; tests number poses from 0.", "anchors": ["include/KimeraRPGO/outlier/Pcm.h:parseAndIncrementAdjMatrix, isOdomConsistent, incrementLandmarkAdjMatrix, multirobotValueInitialization", "include/KimeraRPGO/utils/GraphUtils.h:getBetween", "src/RobustSolver.cpp:update, forceUpdate"]}
{"id": "C92", "title": "With frame alignment, an update with factors forgets earlier optimizations and overwritten estimates", "statement": "With outlier rejection and multirobot frame alignment, an update with at least one factor redraws the initial guess from odometry and accepted closures: if two histories make the same calls apart from optimization flags, optimizers and their settings, overwritten estimates, queries and temporary factors, then after the same update without optimization each pose that odometry of the reference robot, or of a robot with accepted closures to it, reaches has the same estimate in both. If every key is such a pose, the whole estimate is the same, and so is the result of a forced update unless earlier inliers are fixed. For robots whose odometry is chained, starts before closures name them and comes with the value of its first pose, and a reference prefix below 128.", "quantifier": "all parameters, optimizers, averaging functions, pairs of histories and final updates", "why_tests_cant": "All pairs of histories and optimizer results; a test compares two runs.", "anchors": ["include/KimeraRPGO/outlier/Pcm.h:multirobotValueInitialization, getRobotOdomValues, processFactors", "src/RobustSolver.cpp:update, forceUpdate, optimize"]}
{"id": "C93", "title": "The example programs run with exactly what their arguments say, or refuse them", "statement": "RpgoReadG2o and RpgoReadG2oIncremental, called as their usage says, read the file named, write to the folder named (the second: the current one if none is named) and run a solver with exactly the parameters asked for, everything else at its default. If there are enough arguments and one of the numbers is out of range, the program ends by an uncaught exception. In every other case it prints the input warning and makes no call on a solver. GenerateTrajectories does not check its arguments: with two or more, the first two are its file and folder; with fewer, the run is undefined.", "quantifier": "all argument lists, all outcomes of the conversions from text to numbers", "why_tests_cant": "All argument lists; a test tries a few command lines.", "anchors": ["examples/RpgoReadG2o.cpp:main", "examples/RpgoReadG2oIncremental.cpp:main", "examples/GenerateTrajectories.cpp:main", "include/KimeraRPGO/SolverParams.h:RobustSolverParams"]}
{"id": "C94", "title": "Measurements without rotation information only switch off the comparison of rotations", "statement": "With the covariance-based methods (PCM2D, PCM3D), if the closure or any odometry of the robot up to the later of its two poses has no rotation information, the odometry check accepts the closure exactly if the norm of the translation part of the mismatch, under the covariance accumulated along the odometry and the closure, is below the threshold; otherwise the norm is over all components. Likewise for the pairwise check.", "quantifier": "every history of updates that returned normally, every chain length, position, closure, and every positive semidefinite covariance, with or without rotation information in each measurement", "why_tests_cant": "Continuous domain of poses and covariances; all chains and all patterns of missing information.", "anchors": ["include/KimeraRPGO/outlier/Pcm.h:isOdomConsistent", "include/KimeraRPGO/outlier/Pcm.h:areLoopsConsistent", "include/KimeraRPGO/utils/GeometryUtils.h:PoseWithCovariance::between", "include/KimeraRPGO/utils/GeometryUtils.h:PoseWithCovariance::mahalanobis_norm"]}
{"id": "C95", "title": "The numbers of the clique search fit into int", "statement": "As long as a robot pair has at most 46 341 closures, and a landmark at most 46 341 observations, every vertex number, offset, degree and position in the graph the clique search works on is a value of a 32-bit int, whatever the consistency matrix. The bound is exact: with 46 342 closures that all agree an offset does not fit.", "quantifier": "every consistency matrix; every history of calls, including calls that threw", "why_tests_cant": "The failure needs matrices with two billion entries.", "anchors": ["include/KimeraRPGO/max_clique_finder/graphIO.h:CGraphIO", "include/KimeraRPGO/max_clique_finder/graphIO.cpp:ReadEigenAdjacencyMatrix, CalculateVertexDegrees"]}
{"id": "C96", "title": "Whether updates are processed to the end depends on their keys only", "statement": "With closure rejection, a history of updates is processed to the end, without an exception or undefined operation, if and only if no key is given a value twice and the first odometry factor of each robot starts at a pose whose value was supplied with it or before. So it does not depend on what was measured, on noise models, initial values, thresholds, checks, selection mode, GNC, logging, alignment, or on what the optimizers return. If the whole history is processed to the end, so is the part that concerns some of the robots and their landmarks. Measurements have usable covariances, closures and observations name robots with odometry, the optimizers return results, and the conditions of C55 on optimization and alignment hold. Without closure rejection a history is processed to the end if and only if no key is given a value twice and no batch is a single null factor.", "quantifier": "every history of updates, every two configurations and optimizers that meet the conditions", "why_tests_cant": "That measurements and verdicts cannot make a call fail is a claim about all measurements.", "anchors": ["src/RobustSolver.cpp:RobustSolver::update", "src/GenericSolver.cpp:addAndCheckIfOptimize", "include/KimeraRPGO/outlier/Pcm.h:removeOutliers, parseAndIncrementAdjMatrix, updateOdom"]}
{"id": "C97", "title": "The choice of coordinate axes does not matter", "statement": "Let the axes of all frames, those of the world and those the robots and landmarks carry along, be turned by one rotation r, so that every measurement and initial value g becomes r g r\u207b\u00b9 and covariances are turned along. Provided the optimizer (and, if frames are aligned, the averaging) gives the converted result for the converted problem and hash tables are traversed in the corresponding order, every history of calls leaves a solver with the converted graph, estimate and temporary data and the same counts, weights and ignored robots, and every further call returns the same, raises the same exception, or is undefined as before. This is so with PCM_Simple3D, PCM2D and PCM3D, with unchanged thresholds. It is not so if the origins of the frames are moved.", "quantifier": "all rotations, all pose groups, all parameters with the methods named, all histories including calls that throw, all next calls", "why_tests_cant": "It relates two runs for every rotation and every history.", "anchors": ["include/KimeraRPGO/utils/GeometryUtils.h:PoseWithNode, PoseWithCovariance", "include/KimeraRPGO/outlier/Pcm.h:checkOdomConsistent, checkLoopConsistent", "src/RobustSolver.cpp:RobustSolver"]}
{"id": "C98", "title": "Each robot may choose its own body axes", "statement": "Let each robot a (and each kind of landmark) turn the axes it carries along by its own rotation c(a), so that a measurement m from a pose of robot a to one of robot b becomes c(a) m c(b)\u207b\u00b9 and a pose x of robot a becomes x c(a)\u207b\u00b9. With PCM_Simple3D, two solvers, one given the data as they were and one given them in the new axes, hold the same graph up to this change of notation, the same registered and selected closures and landmark observations, the same consistency matrices, estimates for the same keys and the same counts, whatever the two optimizers do to the values. The conditions are those of C58 (calls that return, odometry chains, closures and observations on odometry, landmarks observed by one robot) and that all measurements between the same two robots have the same direction; with closures in both directions it is not so.", "quantifier": "all families of rotations, all pose groups, all parameters with PCM_Simple3D, all histories meeting the conditions, all optimizers", "why_tests_cant": "It relates two runs for every family of rotations and every history.", "anchors": ["include/KimeraRPGO/outlier/Pcm.h:checkOdomConsistent, checkLoopConsistent, areLoopsConsistent, incrementLandmarkAdjMatrix", "include/KimeraRPGO/utils/GeometryUtils.h:PoseWithNode"]}
{"id": "C99", "title": "Small changes of the measurements change nothing unless a comparison is close to its threshold", "statement": "Let two data sets, possibly with different pose types and ways to measure errors, be given to two solvers by the same calls, with the same keys. If every averaged error the checks can ask for (of a closure against the odometry, of two closures of the same two robots, of two observations of a landmark) is below the thresholds in both data sets or in neither, then the two solvers register and select corresponding closures and observations, hold corresponding graphs and the same consistency matrices, have estimates for the same keys and report the same counts, whatever the two optimizers do to the values. In particular this is so if no averaged error changes by more than some amount and none was that close to its threshold. With PCM_Simple2D and PCM_Simple3D, under the conditions of C58 (calls that return, odometry chains, closures and observations on odometry, landmarks observed by one robot) and with hash tables traversed in the same order.", "quantifier": "all pairs of data sets given by the same calls, all margins, all parameters with the simple methods, all histories meeting the conditions, all optimizers", "why_tests_cant": "Stability is a statement about every perturbation of every history.", "anchors": ["include/KimeraRPGO/outlier/Pcm.h:isOdomConsistent, areLoopsConsistent, incrementLandmarkAdjMatrix, findInliers, buildGraphToOptimize", "include/KimeraRPGO/utils/GeometryUtils.h:PoseWithNode"]}
{"id": "C100", "title": "Measurements whose errors are below the thresholds are never dropped", "statement": "Suppose there are true poses such that the error of every odometry measurement of two robots is at most some bounds for translation and rotation that are below the thresholds, where the errors are of a kind whose size is the same seen from everywhere (pure translations for the Euclidean length; every error for a size that does not depend on the place, such as the angle of a rotation). Then, with PCM_Simple2D and PCM_Simple3D, and for any length of the trajectories: every closure whose error is below the odometry thresholds is registered, whatever else is supplied; if all closures supplied between two robots, in one direction, have errors below the thresholds, all of them are registered, accepted and, unless a robot is ignored, in the graph, with all the odometry; if other closures are supplied as well, of which none agrees with these and which contain no equally large agreeing set, exactly these are accepted; and the same for the observations of a landmark by one robot. For errors whose size depends on the place this is not so: with a wrong heading far below the threshold, a correct closure over a long distance is dropped.", "quantifier": "all true poses, all errors within the bounds, all trajectories of any length, all parameters with the simple methods, all histories meeting the conditions, all optimizers", "why_tests_cant": "The guarantee is for every choice of errors within the bounds and every trajectory; tests try a few.", "anchors": ["include/KimeraRPGO/outlier/Pcm.h:isOdomConsistent, areLoopsConsistent, incrementLandmarkAdjMatrix, findInliers, buildGraphToOptimize", "include/KimeraRPGO/utils/GeometryUtils.h:PoseWithNode.compose, inverse, between"]}
{"id": "C101", "title": "A majority of good measurements prevails over grossly wrong ones", "statement": "Suppose there are true poses such that the errors of the odometry of two robots are at most some bounds below the thresholds, and each closure supplied from one robot to the other either has an error within these bounds or is grossly wrong: its error in translation or in rotation is at least M times the sum of threshold and bound, where M is the number of measurements in the longest possible loop. If more than half of the closures are of the first kind, exactly these are accepted, each once, however the wrong ones were chosen and in whatever order they arrive. The same for the observations of a landmark by one robot. A closure within one robot that is grossly wrong with respect to the odometry thresholds is not even registered. With PCM_Simple2D and PCM_Simple3D, errors of a kind whose size is the same from everywhere (C100), noise models with rotation information. The factor M is needed: the mismatch is averaged over the loop, so that over a long loop a closure is accepted whose error is several times the threshold, although the odometry is exact.", "quantifier": "all true poses, all good errors within the bounds, all choices of the wrong measurements, all trajectories of any length, all parameters with the simple methods, all histories meeting the conditions, all optimizers", "why_tests_cant": "The wrong measurements are adversarial: tests inject a few.", "anchors": ["include/KimeraRPGO/outlier/Pcm.h:isOdomConsistent, areLoopsConsistent, incrementLandmarkAdjMatrix, findInliers", "include/KimeraRPGO/max_clique_finder/findClique.cpp:maxClique", "include/KimeraRPGO/max_clique_finder/findCliqueHeu.cpp:maxCliqueHeu, maxCliqueHeuIncremental", "include/KimeraRPGO/utils/GeometryUtils.h:PoseWithNode"]}
{"id": "C102", "title": "What the messages on the terminal say is true", "statement": "The verbosity never influences what a call does. Outside mode VERBOSE a call writes exactly the warnings and the solver's own messages it writes in mode VERBOSE, in the same order. During a batch with outlier rejection: one warning for every factor from a key to itself and one for every loop-closure candidate with an end that has no value, no others of these kinds; in mode VERBOSE every between factor that is not odometry is accounted for by exactly one message that says it was registered or refused, getNumLC() grows by exactly the number of the former, the keys named by the messages about closures are, for every pair of robots, those of the closures registered by the call in the order of registration, and the messages about landmarks name the landmarks observed. An observation of a landmark gives one warning for every earlier observation of it by another robot. With frame alignment on, a fleet as in C30 and no optimization in the call, the warning that a robot has no closures to the reference robot is written exactly for the robots that the call leaves where they were, among them every robot for which no such closure was sent. The totals in the messages are what getNumLC() and, without GNC, getNumLCInliers() return after the call, and every batch with a candidate or a factor that is not a between factor ends with one summary. Of the calls that are given no batch only those that optimize write messages: one when the optimization starts and, except with Gauss-Newton without GNC, one when it ends, with the numbers the getters return. Without outlier rejection ignorePrefix() and revivePrefix() leave the graph alone and say so by a warning, and getIgnoredPrefixes() returns nothing, with the same warning. Exceptions: outside mode VERBOSE a closure refused by the odometry check is dropped without any message; the number of closures in the message after an optimization with GNC is the number of consistent ones, not getNumLC(); and an observation of a landmark written from the landmark to the pose is said to be discarded although it is registered and counted; and with a reference robot whose prefix byte is 128 or more, where char is signed, the warning that there are no closures to it is written although one was accepted.", "quantifier": "all parameters, batches, states and optimizers; every call for the first two sentences", "why_tests_cant": "Messages are checked by reading a few; that each factor of every batch has its message and that the numbers agree with the getters is a statement about all batches.", "anchors": ["include/KimeraRPGO/outlier/Pcm.h:removeOutliers, parseAndIncrementAdjMatrix, incrementLandmarkAdjMatrix, findInliers, findInliersIncremental, multirobotValueInitialization", "src/RobustSolver.cpp:optimize", "include/KimeraRPGO/RobustSolver.h:getNumLC, getNumLCInliers", "include/KimeraRPGO/Logger.h:log"]}
{"id": "C103", "title": "Odometry is looked at only between the poses that are compared", "statement": "With the simple PCM methods, let two solvers receive the same calls with the same keys, loop closures and landmark observations, but different odometry measurements, where the odometry of each robot is chained and the closures and observations lie on it. If the odometry is the same between the two ends of every closure inside a robot, between the ends on the same robot of every two closures of the same pair of robots, and between the poses from which a robot observed the same landmark, then both solvers register and accept the same closures and observations and report the same counts. In particular, what the odometry measures before and after the stretch that the closures and observations of a robot refer to has no influence on what is accepted, however wrong it is. It does have influence where it lies between compared poses.", "quantifier": "all groups of poses, norms, thresholds, numbers of robots, histories of calls managed by the solver (at most one observing robot per landmark), odometry measurements outside the compared stretches", "why_tests_cant": "A test can corrupt a few odometry factors; that no measurement outside the compared stretches is ever consulted, for all data, is a statement about all histories.", "anchors": ["include/KimeraRPGO/outlier/Pcm.h:isOdomConsistent, areLoopsConsistent, areLandmarksConsistent", "include/KimeraRPGO/utils/GeometryUtils.h:getBetween"]}
{"id": "C104", "title": "A call that throws leaves no half-written estimate", "statement": "If a call other than updateValues throws, whatever the call, the state and the cause, then one of the following holds. Every estimate that existed before the call is as it was. Or the call is an update whose optimization failed, and the estimate is the one the same update without optimization leaves; this differs from the first case only with frame alignment, which may have moved robots already. Or only the status log could not be written, and the call has done everything it does without status log. So with neither frame alignment nor status log a call that throws never changes an earlier estimate, and no part of an optimizer's result is ever stored. This needs optimizers that return values only for keys they were given, of the same types. updateValues itself does store the values before the one that has a wrong type.", "quantifier": "all states, calls, parameters, optimizers that keep types (they may fail at any time)", "why_tests_cant": "A test provokes a few exceptions in a few states; that no exception at any point of any call leaves a partly updated estimate is about all of them.", "anchors": ["src/RobustSolver.cpp:update, forceUpdate, optimize, removeLastLoopClosure, ignorePrefix, revivePrefix, removePriorFactorsWithPrefix, saveData", "src/GenericSolver.cpp:update, updateValues, addAndCheckIfOptimize", "include/KimeraRPGO/outlier/Pcm.h:removeOutliers, multirobotValueInitialization"]}
{"id": "C105", "title": "Priors have no say in what is accepted", "statement": "Take two histories that supply the same relative-pose measurements and values in the same batches and remove, ignore and revive the same in the same order. They may differ in which priors and other factors that are not between factors (or null factors) come with the batches and where, in when priors are removed, in optimization flags, in optimizers and in calls that are not about factors. If no call fails, then the same closures and landmark observations are registered and accepted, the same keys have estimates, the same prefixes are ignored, and getNumLC and (without GNC) getNumLCInliers report the same. The graphs hold the same measurements in the same order, and if the priors and other factors that were supplied and not removed are the same in the end, the graphs are the same. Conditions: outlier rejection is on, the first odometry factor of each robot comes with its first value or after earlier odometry of that robot, the factor graph is not edited directly, and with frame alignment a batch without any factor has none in the other history either.", "quantifier": "all pairs of histories related in this way, parameters, optimizers, iteration orders", "why_tests_cant": "A test compares one history with and without a prior; that no prior supplied or removed at any time changes any later decision is about all histories.", "anchors": ["include/KimeraRPGO/outlier/Pcm.h:removeOutliers, removePriorFactorsWithPrefix, buildGraphToOptimize", "src/RobustSolver.cpp:update, forceUpdate, removePriorFactorsWithPrefix"]}
{"id": "C106", "title": "With covariance thresholds only the ratio of standard deviations to thresholds matters", "statement": "With PCM2D or PCM3D, let the standard deviations of all measurements be multiplied by one positive number c (the covariances by its square) and both thresholds be divided by c. Provided the optimizer gives the same result for the changed problem and hash tables are traversed in the corresponding order, every history of calls leaves a solver with the same graph but for the noise models, the same estimate and temporary data and the same counts, weights and ignored robots, and every further call returns the same, raises the same exception, or is undefined as before. If only the covariances are changed and the thresholds are not, a closure that is rejected may be accepted.", "quantifier": "all positive factors, all pose groups and covariances, all parameters with these methods, all histories including calls that throw, all next calls", "why_tests_cant": "A test compares two settings on one data set; that the noise level and the thresholds enter only through their ratio is about all data sets and all histories.", "anchors": ["include/KimeraRPGO/utils/GeometryUtils.h:PoseWithCovariance, mahalanobis_norm", "include/KimeraRPGO/outlier/Pcm.h:checkOdomConsistent, checkLoopConsistent", "include/KimeraRPGO/SolverParams.h:setPcm2DParams, setPcm3DParams"]}
{"id": "C107", "title": "setQuiet() silences the solver's own messages and changes nothing else", "statement": "However calls of setQuiet() are mixed into a history, the solver is in the state in which the other calls leave a solver that was silent from the start, and a history that works without setQuiet() works with it and ends in the same state. With outlier rejection, or with Gauss-Newton, every call after setQuiet() returns the same, raises the same exception or is undefined as before. After setQuiet() no call prints the messages of the optimization; everything else is printed as before. Two exceptions to what the name suggests: in mode VERBOSE the messages of the outlier rejection are still printed; and with Levenberg-Marquardt and without outlier rejection an optimization of the talking solver is undefined (its message asks the missing rejection object for a count) while after setQuiet() the same call is fine.", "quantifier": "all parameters, all histories including calls that throw, all positions and numbers of setQuiet() calls, all next calls", "why_tests_cant": "Tests silence the solver at the start to keep their output short; that a later call of setQuiet(), at any point of any history, changes no result is about all histories.", "anchors": ["include/KimeraRPGO/GenericSolver.h:setQuiet, debug_", "src/RobustSolver.cpp:optimize", "src/GenericSolver.cpp:update"]}
{"id": "C108", "title": "The verbosity decides what is printed and nothing else", "statement": "The verbosity of a solver is the one passed to the last setter that takes one, and UPDATE if none was called. With outlier rejection, or with Gauss-Newton, solvers made from parameters that differ only in the verbosity allow the same histories of calls with the same states, and every further call has the same outcome; in any case what is possible at another verbosity is possible at QUIET, with the same state. A call prints at UPDATE what it prints at VERBOSE without the messages of the outlier rejection that are not warnings, in the same order, and at QUIET exactly the warnings among them. Making a solver prints nothing at UPDATE and QUIET, and one message at VERBOSE. Exception: a verbosity that is none of the three values is announced as set to UPDATE, but the solver prints as at VERBOSE.", "quantifier": "all sequences of setter calls, all parameters, all numbers behind the enumeration, all histories including calls that throw, all next calls and optimizers", "why_tests_cant": "Tests run at one verbosity; that no result anywhere depends on it, and that QUIET loses no warning, is about all histories.", "anchors": ["src/RobustSolver.cpp:RobustSolver", "include/KimeraRPGO/SolverParams.h:Verbosity, setNoRejection, setPcm2DParams, setPcm3DParams, setPcmSimple2DParams, setPcmSimple3DParams", "include/KimeraRPGO/outlier/OutlierRemoval.h:setQuiet"]}
