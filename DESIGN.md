# Formal model of Kimera-RPGO: design

Technique: a Lean 4 model of the code (total, computable functions), an
independent specification, and theorems checked by Lean's kernel.

## Layout

* `lean/Verif/Model/*.lean`  – the code, function by function, each definition cites file and lines of `/repo`.
* `lean/Verif/Spec/*.lean`   – small specifications and the vocabulary of the theorems; `Spec/Demo.lean` holds the concrete
  solvers used in examples and counterexamples.
* `lean/Verif/Proofs/*.lean` – helper lemmas.
* `lean/Verif/Props/*.lean`  – the property theorems `Cnn_…`, each with a concrete non-vacuity example. A theorem
  named `…_partial` proves part of its property, `…_false…` proves the negation of the property (or of its missing part).
* `seeded/LOG.jsonl` – wrong programs tried against the theorems.

## Conventions of the model

* Keys are 64-bit vectors (prefix = top 8 bits), characters are 8-bit vectors.
* Every outcome is one of `ok state value`, `throw state exception` (a C++ exception, with the state left behind at
  the throw) or `ub reason` (undefined behaviour or an Eigen assertion). Histories continue after an exception.
* `std::map` is a key-sorted association list; `std::unordered_map` is an association list in insertion order, and
  every place where its iteration order is observable takes an arbitrary permutation as parameter.
* Poses are elements of an arbitrary group; norms, thresholds and weights live in an arbitrary linearly ordered field.
  Floating point rounding is not modelled.
* External code is an arbitrary function parameter: LM / GN / GNC optimizers, robust pose averaging, Cholesky test.
* The public calls of a solver are the constructors of `Op`; `exec cfg env op` runs one. `Reach cfg env h s` says that the
  calls `h`, each returning normally or throwing, can lead from a fresh solver to `s`; `ReachOk` the same without throws.

## Properties: plan

* **C01 Exact clique finder is exact** – Model CSR graph reading and maxClique/maxCliqueHelper exactly (prunes included); prove soundness by an invariant on partial cliques and optimality by induction on the recursion (every pruned subtree contains no larger clique).
* **C02 Adjacency matrix is read faithfully** – Model the lower-triangle scan and offset array; prove the decoded neighbour list equals the ascending filter of the symmetrised lower triangle.
* **C03 Heuristic clique size is attainable** – Model maxCliqueHeu with its S buffer; a ghost list of chosen vertices is a clique of the reported size to which no vertex can be added.
* **C04 Indices returned by the heuristic are a clique** – False of the code. Prove the negation with concrete matrices (duplicates, non-adjacent pairs); `_partial`: first entry adjacent to all others, in range, and a clique when size <= 2.
* **C05 All mutually consistent closures are kept** – On transitive graphs the buffer compaction is the identity; prove the result is a maximum clique and the indices are that clique.
* **C06 Clique finders never index out of bounds** – Buffer accesses are explicit faults in the model; prove no fault for n >= 1; n = 0 and the size_t underflow are given as witnesses.
* **C07 Incremental clique search never shrinks the inlier set** – Model the incremental loop; case analysis on final maxClq versus previous size; then lift to update histories.
* **C08 Pose-with-node-count algebra** – PoseWithNode over an arbitrary group; algebraic proofs.
* **C09 Odometry trajectory is the running product of the measurements** – Model updateOdom and getBetween; induction over odometry sequence.
* **C10 Consistency checks do not depend on the initial guess** – Corollary of C09 form: left translation cancels in between.
* **C11 Average-error norms never divide by zero** – Track node counts through isOdomConsistent/areLoopsConsistent/landmark loops.
* **C12 Error-free loop closures are accepted** – Group computation on the modelled check functions.
* **C13 Pairwise check does not depend on the direction a closure is expressed in** – False of the code: concrete witness in the group of integers; `_partial`: reversing both closures of a pair, for distances that do not change under conjugation; `Props/Plane.lean`: with planar poses (`Spec/Plane.lean`) even that changes the verdict.
* **C14 Covariance bookkeeping of between inverts compose** – Matrices over an ordered field with an abstract adjoint representation; LLT success is an abstract predicate true on positive definite matrices.
* **C15 Threshold semantics** – Proved on the modelled Pcm constructor and check functions, over any linear order.
* **C16 Graph layout: odometry first, then special factors** – Invariant over all call histories (inductive reachability incl. calls that threw).
* **C17 Loop closures in the graph come from the user and passed the odometry check** – Ghost history of supplied factors; invariant over reachability.
* **C18 Every factor is classified into exactly one class** – Specification classifier written independently; the modelled loop is proved equal to filters by the specification.
* **C19 getNumLC counts registrations and never decreases** – Counting lemma for each operation, lifted to histories.
* **C20 Inlier count never exceeds the closure count and accounts for the graph size** – Invariant on Measurements (consistent length <= factors length) and counters.
* **C21 Odometry-only updates do not touch existing estimates** – Direct proof on update; false with alignment on and two robots (witness); `_partial` otherwise.
* **C22 Stored adjacency is the pairwise check, symmetric with zero diagonal** – Invariant of incrementAdjMatrix over update histories.
* **C23 Ignored prefixes stay out of the graph** – From build function; landmark observations are not filtered (witness), hence stated for pose closures.
* **C24 Ignore and revive are inverse and idempotent** – List lemmas on the ignored list; state-level round trip.
* **C25 removeLastLoopClosure removes in reverse chronological order** – Invariant linking the order stack and per-pair lists; induction over removals.
* **C26 removeLastLoopClosure is safe to call at any time** – False: witnesses. `_partial`: chronological form alone is safe after updates.
* **C27 Adding closures after removals works** – False: witness (stale 2x2 matrix). `_partial`: as long as each pair keeps >= 2 closures.
* **C28 Landmark observations are never lost** – False: witness. `_partial`: batches in which no observation carries a new pose or the landmark value.
* **C29 Prior removal removes exactly the priors of one robot** – Filter characterisation of both removal loops.
* **C30 Multi-robot alignment: reference robot and key set** – Model multirobotValueInitialization with arbitrary averaging result.
* **C31 Multi-robot alignment is exact for exact closures** – Group computation for both directions.
* **C32 Robot pairs are unordered keys** – Finite characters as BitVec 8; arbitrary hash function on characters.
* **C33 Odometry never crosses robots** – Bit-vector reasoning on 64-bit keys.
* **C34 Estimate keys are exactly the keys supplied** – Invariant on the key list over all operations.
* **C35 Optimization does not change the factor graph** – Relational proof over histories: graph component does not depend on optimizer.
* **C36 Temporary factors are isolated** – Invariant and relational proof.  The temporary part after a history is a fold over the calls (all other calls keep it, with failures).
* **C37 GNC weights line up with the graph and odometry is known inlier** – Post-condition of optimize.
* **C38 Optimizing is memory safe** – False: witness. `_partial`: optimize is safe when the number of registered closures at the last optimization is at most the weight vector and graph sizes.
* **C39 No-rejection mode keeps everything and works** – Graph = all supplied factors in order; witnesses for the null dereference with default verbosity.
* **C40 Failed updates are harmless** – Proved for PCM; negation witness for the no-rejection mode.
* **C41 forceUpdate bypasses outlier rejection** – False: witness; `_partial`: what forceUpdate really does (same graph as update).
* **C42 The last parameter setter decides** – False: witness; `_partial`: method and same-family thresholds are decided by the last call.
* **C43 Saved information matrices round-trip** – Model the triangle writer and block swap; round-trip by linear index arithmetic.
* **C44 Removing factors by index** – Index-set lemma; `_partial` because with PCM the factor reappears on the next rebuild (witness).
* **C45 Disabled pairwise check keeps every closure** – Batch mode: proved; incremental: false (witness).
* **C46 Results do not depend on how measurements are batched** – Fold-append lemma plus determinism of findInliers; for any division, an invariant that the registered closures are those of one pass over all candidates with the present odometry, because verdicts on keys already reached do not change when odometry goes on.
* **C47 GNC-only configuration is safe and keeps previous inliers** – Invariant on weight-vector length and registered closures over restricted histories.
* **C48 Any noise model is handled without undefined behaviour** – A null Gaussian pointer is an explicit outcome of the model; false for every update with non-Gaussian odometry (theorem for all states); `_partial`: Gaussian noise.
* **C49 Saved information matrices are in g2o order** – Compare the written entries with the conjugated matrix; false (witness); `_partial`: symmetric coupling block.
* **C50 The odometry check is the averaged mismatch around the loop** – Closed formula of the lookups along a chain (C09), substituted in the check; then the registration theorem of C18 turns it into a statement about calls.
* **C51 The pairwise check is the averaged mismatch around the cycle** – The same for two closures; the growth lemma of C22 turns it into a statement about the stored matrix. Opposite directions: what the code computes instead.
* **C52 Landmark observations are compared around the observation cycle** – Growth lemma for the landmark matrix, induction over histories with exceptions; closed formula for one robot; for two robots the formula the code really uses, and witnesses that the property fails.
* **C53 covariance checks.** – Closed formula for the composed record along chains (`walk_full`, induction), positive definiteness of path covariances, then the checks over real matrices; the property itself refuted by a kernel-evaluated run over rational 3×3 matrices.
* **C54 threshold components.** – Components of the logarithm as lists in GTSAM's order; 3D from the C50/C51 formulas, 2D refuted for all reachable states and in a run.
* **C55 Well-formed updates are processed to the end** – Totality of the factor loop, registration and selection from tidy states, of the optimization under the bound of C38 of frame alignment (every trajectory key has a pose value) and of status logging (provenance, C17); induction over the history with the types of the stored values as invariant.
* **C56 The GNC inlier count** – The weights of the known inliers are 1 and cancel against the subtracted count (floor of a sum, 64-bit subtraction without wrap). The bound: induction over the history, calls without GNC leave the count alone, and GNC's count is at most the closures in the graph, hence at most those registered (C19).
* **C57 Re-optimizing with fixed previous inliers** – As C47, with the assumption on the state before instead of on the configuration; quiet calls leave the tables, the weights and the count alone. Counterexamples: runs evaluated by the kernel.
* **C58 The graph does not depend on the initial guess** – Simulation: two rejection states are twins if they differ only in trajectories. Every pass over the tables is blind to the trajectories; registering a measurement gives the same row because the verdicts do not depend on the start of the chain (C50-C53); selection and the rebuilt graph read the tables only. Counterexample: a run evaluated by the kernel.
* **C59 What the estimate is after a call** – Each call is split into a phase before the optimization, which leaves the estimate alone apart from the supplied values, and the optimization; the result is applied entry by entry (induction over the result).
* **C60 What the g2o example programs save** – The two programs are modelled as functions from a file to a list of solver calls and from arguments to parameters; their runs are compared with the theorem on divisions into updates (C46), the estimate with C59, completion with C55. Two counterexamples.
* **C61 What the log files say** – The procedures that write files are modelled a second time with the files as part of the state; a projection theorem says that the solver part is unchanged, the contents follow by induction over runs from the effect of one call. Two counterexamples.
* **C62 Graphs read from files** – The entry loop with its neighbour and value lists; invariant over the lines read: a neighbour list holds exactly the vertices some line joins to its own, once each. The correctness proofs of the finders are stated for neighbour lists in any order, so they apply to both readers. Five counterexamples.
* **C63 Trajectory files per robot** – The splitting loop keeps a sorted map from characters to values; by induction over the vertices its entries are the filtered vertex lists. The writing loop is a procedure that can throw.
* **C64 Which closures of a robot pair are accepted** – An invariant over histories (Proofs/Select) ties the accepted list to the positions the clique search returned for the current matrix, in both modes and through removals; the properties of the search (C03, C05, C07) then speak about accepted closures. Three counterexamples at the level of the API.
* **C65 What is accepted between two robots depends only on these two robots** – The state of a pair is shown to be a fold over the groups of candidates of that pair, judged with the final odometry (Proofs/PairState); the verdicts depend only on the odometry of the two robots. Two histories with the same groups then have the same pair state; restriction of a history to two robots is a special case.
* **C66 Frame alignment averages the accepted closures with the documented weights** – Model of the averaging problem (Model/Averaging: factors, standard deviations by component, start, threshold); the cost of each factor is computed and compared with a weighted distance; combined with C30 into a statement about an update. False in 2D.
* **C67 The optimizers run with the settings last made** – Model of the tuning members and of what is handed to the optimizers (Model/Tuning); induction over the sequence of setter calls; combined with the analysis of optimize.
* **C68 Removing the closures just added undoes the addition** – Invariant between the state before and every later one: the earlier closures are a prefix and their entries of the matrix are unchanged, as long as the pair has no fewer closures; the search reads nothing else. The graph follows from the selected closures of every pair, up to order. False with incremental selection.
* **C69 Which observations of a landmark are accepted** – Invariant over calls that returned normally: the selection of every landmark is the one the search makes on its matrix (a landmark with one observation keeps it). With the specification of the search as in C64; unaffected calls because selecting again from the same matrix gives the same selection.
* **C70 What is accepted does not depend on the visiting order of hash tables** – Simulation: both solvers keep equal stored measurements and known keys, with no relation between their environments; the graph is rebuilt from the stored measurements, so the graphs are permutations of each other. Negation for removal by position.
* **C71 Going on after an exception** – An update is split into the part without numerics and the optimization, which changes nothing when it throws; the run with exceptions is simulated by the run of the calls standing for it, with the simulation of C70 (equal stored measurements and known keys). Negation for the exception of C27.
* **C72 What is accepted of a landmark depends only on it and on its observer** – The registered observations of a landmark and their matrix are written as a fold over the observations supplied; the verdicts in it are those of the trajectory of the observer re-based to start at the identity, and the accepted ones are the clique found in that matrix. Negation for two observers.
* **C73 The order in which messages about different robots arrive makes no difference** – Every entry of the tables of closures and of landmarks depends only on its own measurements (C65, C72); the graph is the concatenation of these entries with the odometry and the other factors, so two tables with equal entries give graphs that are permutations of each other. The number of closures is a count over the candidates, which are permutations of each other. Negations for the number of inliers and for messages about the same pair.
* **C74 A leading group of agreeing measurements is accepted, whole and alone, whatever the outliers are** – The heuristic search started at a vertex returns a clique through that vertex (run lemma of C03). A leading group is a connected component that is a clique, so every run started inside of it returns all of it; runs started before it stay below its size and runs after it do not exceed it, so its members are kept. In incremental mode by induction over the history: if the group contains none of the new closures it was leading before, otherwise the search starts at one of its members. For measurements: the matrix equals the verdicts of the present trajectories (C65), which C12 gives.
* **C75 Which of two closures arrived first matters only through their directions, through turning, and through ties** – One check: with q the odometry of the second robot between the two closures, the error of (y, x) is q E⁻¹ q⁻¹ where E is that of (x, y); hop counts and rotation flags are symmetric. Histories: the registered closures are the candidates that pass the odometry check (C65), so they are rearrangements of each other; the rearrangement of positions carries agreement over; then C64 for numbers and C74 for leading groups. Witnesses are runs of concrete solvers, one with robots that can turn round.
* **C76 A closure that is received again counts again** – The error around the cycle of a closure and its copy is the identity, so both checks pass. A copy agrees with what the original agrees with (C75), so a leading group with one more position is leading, and C74 applies. For repeated outliers: the copies are themselves a leading group.
* **C77 Values may be supplied ahead of their factors, except those by which the factors are recognized** – Specification `Spec.Marks` (which keys decide how a factor is recognized). Inserting v1 then v2 is inserting v1 ++ v2; the classification of every factor is the same; everything else of an update reads only the stored values, so the outcomes are equal as functions of the state.
* **C78 Hop counts do not overflow** – Specification `Spec.IntOps` (operations that behave as written where the count fits an `int`, and arbitrarily otherwise) and `Spec.withCounts`. A logic of two programs that do the same from states in which all stored counts are at most n (`SameRun`), through every function that touches hop counts: an odometry factor raises the bound by one, a check computes at most 6n + 2.
* **C79 Optimization can be postponed** – Specification `Spec.thenCall` (one call and then another) and `Spec.Settles` (optimizers that return their own result unchanged). The calls are decomposed into taking in the measurements and `wrapUp`; an empty call takes nothing in. For the last claim the values handed to the second run are shown to be the first run's result.
* **C80 Names of robots and landmarks do not matter** – Specification `Spec/Rename.lean`: what it means to rename keys, factors, maps and calls, `Renamed` (optimizers that do not look at names), `SameShown`, `SameEnd`. `Proofs/Rename.lean` shows that every procedure of the model commutes with renaming, from the clique code's callers up to `exec`; histories by induction.
* **C81 A solver restarted from the graph and estimate of another one accepts the same closures** – `Spec.Restartable`, `Spec.Restarted` in `Props/Restart.lean`. Each accepted closure lies in the graph exactly once; the new solver classifies the factors as the old one did; its odometry poses are those of the old one (`pair_same_batch`), so all registered closures pass both checks and the clique is everything (`C64_all`).
* **C82 The unit of length does not matter** – `Spec/Convert.lean` says what it means to express the same data differently (`cvOp`, `Converted`, `SameContent`, `EndsAlike`). Every procedure of the model commutes with conversion along a homomorphism (`Proofs/Convert.lean`, `exec_cv`), if the checks do; `simple_hom` and `cov_hom` show that they do.
* **C83 With the simple methods the covariances do not influence what is accepted** – `Spec.SameUpToNoise` in `Props/Noise.lean`. Both histories are images of one with labels in place of covariances; each run is pulled back to a run on labels (`pull_back`, `reachOk_back`), where C70 applies.
* **C84 The part of the graph about some of the robots is the graph they would get on their own** – `Spec.ofFleet`, `Spec.keep`, `Spec.PartOf`, `Spec.TwoFleets` in `Proofs/Fleet.lean`, `Props/Fleet.lean`. The restricted history meets the same conditions (`WellFed.inFleet`); the odometry of a kept robot, the groups of closures of a kept pair and the observations of a kept landmark are the same, those of the others empty; so the tables agree entry by entry (`pair_same`, `land_alone`, `get?_filter`, `table_perm_get`).
* **C85 Exactly which updates fail, and how** – `Spec.Clash`, `Spec.Rootless`, `Spec.Grounded` in `Props/Failure.lean`. Inserting values fails exactly on a clash (`C34_estimate_keys`); sorting the factors fails exactly at the first rootless odometry factor (`sortFactors_rootless`), since in a grounded history a robot has a trajectory exactly if it got odometry (`ReachOk.hasTraj_iff`); everything after that cannot fail in a tidy state (`removeOutliers_total`). With optimization (`Props/FailureOpt.lean`): the merge of estimate and temporary values fails exactly on a common key, and nothing after it fails if the optimizers return (`optimize_outcome`).
* **C86 Incremental selection changes only which closures are accepted, and not if one group leads** – `Spec.SameRegistered`, `Spec.Decided` in `Props/Modes.lean`. The trajectories of two runs differ only in their starts (`onChain_modes`), so all verdicts agree; the registered closures and the matrix are a fold over the candidates (`groupFold_bare`), whatever the selection; leading groups are accepted in both modes (C74), and under transitivity both accept a largest group (C64). The tables of the two solvers are compared entry by entry, up to order (`table_perm_like`).
* **C87 When prefixes are ignored and revived makes no difference, only which are ignored in the end** – `Spec.SameButHiding`, `Spec.SameJudgement` in `Props/Ignoring.lean`. Every procedure of the rejection module commutes with replacing the ignored set (`Deaf`, `Proofs/Ignore.lean`), except the one that builds the graph; the two solvers stay alike up to that set and to the values of known keys (`NearI`), by induction on the pairing of the histories.
* **C88 What higher thresholds change** – `Spec.Raised`, `Spec.Looser` in `Props/Looser.lean`. The trajectories of the two runs differ only in their starts (`onChain_tests`), so a verdict can only become positive; the registered closures of a pair are a filter of the candidates (`pair_registered`), hence one list is a sublist of the other, given by an order embedding of positions; the matrices of landmarks are compared entry by entry (`LandLess`). Under transitivity the accepted closures are a largest group (C64), and a group of the first solver is a group of the second.
* **C89 Ignoring a robot is as good as never having received its loop closures** – `Spec.neverHeard`, `Spec.SameOthers` in `Props/Forget.lean`. The shortened history supplies the same odometry, other factors and landmark observations, in the same order, and meets the same conditions (`WellFed.heard`); the groups of closures of a pair are the same, or empty if the pair is ignored (`pairGroups_heard`), so C65 and C72 apply to each pair and landmark, and the graph is compared table by table.
* **C90 With outlier rejection, edits of the graph from outside last only until the graph is built anew** – `Spec.EditsGraph`, `Spec.BuildsAnew`, `Spec.Superseded` in `Props/Reset.lean`. An edit changes `nfg` only (`editsGraph_ends`); a call that builds anew and returns normally does the same from two states that differ only in `nfg` (`exec_anew`); histories by induction.
* **C91 The numbers of poses and landmarks do not matter** – `Spec.Naming` (names and, per prefix, numbers), `Successive`, `ZeroOrOne`, `Numbered` in `Spec/Rename.lean`. The proof of C80 in `Proofs/Rename.lean` is the special case of unchanged numbers. Frame alignment needs the order of prefixes only (a bijection that keeps the order is the identity, hence unchanged names) and, per robot, the set of trajectory keys; these correspond except for the keys that comparing two observers of a landmark creates, number 0 of both robots.
* **C92 With frame alignment, an update with factors forgets earlier optimizations** – `Spec.Redrawn` and `Tied` in `Props/Realign.lean`. By the proof of C35 both runs reach the same selection state; what alignment writes is a function of that state (`aligned_values`), and a tied robot has an offset (`tied_offset`, from the candidates of C30). For a forced update: C79, and without fixed inliers the result of an optimization is a function of graph, estimate and temporaries (`optimize_agree`).
* **C93 The example programs run with exactly what their arguments say** – `main` of the three programs is `Model/Main.lean`, with `stoi`, `stof`, `stod` external (a number, `invalid_argument` or `out_of_range`); the usage is `Spec.BatchArgs`, `Spec.IncArgs` in `Props/Main.lean`. The three cases exclude each other and cover all argument lists. The parameters are those C60 runs with.
* **C94 Measurements without rotation information** – As C53, with `covUsed` (of a measurement without rotation information only the translation block) and positive semidefinite covariances. The covariance of the odometry between two positions is `Spec.relUsed`, which shows the sign the code gets wrong; `C94_translation_only_partial` shows that it is always wrong for translation-only odometry in 3D. Counterexample: a run evaluated by the kernel.
* **C95 The numbers of the clique search fit into int** – The offsets are sums of degrees, each at most n - 1 (`off_le`), so at most n (n - 1) < 2^31; for the complete graph they are equal to it. The size of the matrix in reachable states is C22 / C52.
* **C96 Whether updates are processed to the end depends on their keys only** – One direction is C55. For the other one, by induction over the history: an update that returns has inserted its values (so no key had one) and sorted its factors, which fails at the first odometry factor that cannot be attached (`sortFactors_rootless`); a robot has a trajectory exactly if it has odometry (`ReachOk.hasTraj_iff`), and values keep their types. Being well-formed is a statement about keys and types of values (`Spec.outline`), hence the independence.
* **C97 The choice of coordinate axes does not matter** – Conjugation by `r` is a homomorphism of poses that keeps the sizes of both parts of a pose, so the simulation of C82 (`Proofs/Convert`) applies. For covariances the conversion is the adjoint of `r`; with matrices it keeps Mahalanobis norms because it acts on covariances and tangent vectors alike, and those of the translation block because a rotation does not mix the blocks.
* **C98 Each robot may choose its own body axes** – No homomorphism of poses describes this change, so both runs are lifted to one history over pairs of poses (`Proofs/Reframe`), of which the first components are the old and the second the new data. C50, C51 and C52 give the verdicts of both runs as functions of closed paths; on a closed path at robot a the second component is the first conjugated by c(a), so the sizes agree. The twin simulation of C58 (`twin_of_verdicts`) then gives the result.
* **C99 Small changes of the measurements change nothing unless a comparison is close to its threshold** – The two runs are lifted to one history over pairs of poses, as for C98. C50, C51 and C52 say which errors are compared, `twin_of_verdicts` that only the outcomes of these comparisons matter.
* **C100 Measurements whose errors are below the thresholds are never dropped** – Each check divides the mismatch of a loop by the number of its measurements. `Walk`: after n measurements the error is a product of n errors seen from other places, so at most n times the bound. With C50–C52 every check passes; C64 and C69 (if all agree all are accepted) do the rest.
* **C101 A majority of good measurements prevails over grossly wrong ones** – By C100 good measurements agree with each other. `Walk.error`: if a measurement closes a loop with n good ones up to a mismatch, its error is at most the mismatch plus n bounds; so a grossly wrong one agrees with no good one. Then C74 (a group that agrees with nobody else and outnumbers the rest is accepted).
* **C102 What the messages on the terminal say is true** – `Model/Print` repeats the procedures that write messages, with the list of messages as part of the state. `hush_exec`: erasing the messages gives the model of the other properties. `Thins.exec`: quiet mode writes the loud messages. `processFactorsT_says` and `optimizeT_says`: the messages of a batch as a formula of the batch and the state after it (`heard`), from which the claims follow by counting, with C18 and C19 for what was registered.
* **C103 Odometry is looked at only between the poses that are compared** – corollary of `C99_judged_alike`, whose condition now speaks only of measurements that were not supplied as odometry (`Spec.Checked`): the errors the checks ask for (C50, C51, C52) contain the odometry between the compared poses only.
* **C104 A call that throws leaves no half-written estimate** – case distinction over the calls: everything before the optimization keeps existing entries (C40), an optimization that throws returns the state it started from because storing a result of the right types cannot fail, and status logging changes nothing.
* **C105 Priors have no say in what is accepted** – two runs side by side, by induction over the pair of histories. The loop over a batch does the same to everything but the list of other factors whether or not those factors are there, and nothing else reads that list but the function that builds the graph.
* **C106 With covariance thresholds only the ratio of standard deviations to thresholds matters** – composing, inverting and comparing poses commutes with multiplying all covariances by a number, the Mahalanobis norm is divided by its root, and the comparison with the thresholds stays; then the simulation of C82.
* **C107 setQuiet() silences the solver's own messages and changes nothing else** – `Model/Quiet` adds the call and the flag to the state of `Model/Print`. `Lowers.exec`: from any state and any messages so far, the silent call ends as the talking one and adds the same messages without the solver's, or the talking one uses the missing rejection object; then induction over sessions.
* **C108 The verbosity decides what is printed and nothing else** – `Model/Verbosity` has the switch of the constructor; `C107_call` and the filters of C102 and C107 give the comparison of the three levels.

## Where the code and a property disagree

Found while proving; each is a theorem about the model with a concrete run or for all states.

* C04: `maxCliqueHeu` copies entries of a buffer it has already compacted, so its index list can repeat a vertex and contain
  non-adjacent ones. The size it reports is attained (C03).
* C06: on the empty matrix the heuristic returns -1, which callers convert to `size_t`; this happens in the run of C26_false_unchecked.
* C10: for a key that has an initial value but no odometry, the odometry verdict on a closure depends on the initial guess of the
  robot's first key.
  With rounded pose arithmetic it also depends on how far the guess is from the origin (`C10_false_rounding`).
* C13, C51: for a pair of closures in opposite directions between two robots the check swaps the keys of the second closure but
  not its measurement. Also for closures in the same direction the verdict depends on that direction: the error is
  expressed at the end of the first closure, so an angle error becomes a translation error at the other end (C13_false_both).
* C15: a negative threshold disables a check, so raising it from negative to zero turns acceptance into rejection; for landmark
  observations a negative threshold does not disable the check but makes every pair of observations inconsistent.
* C42: a negative threshold of one family (simple or covariance) keeps disabling the check after a setter of the other family.
* C17: first observations of landmarks bypass every check, even if the observing pose has no value.
* C21: with frame alignment an odometry-only update rewrites the estimates of the other robots.
* C23: landmark observations made by an ignored robot stay in the graph.
* C26, C27: removal by robot pair does not touch the chronological stack, and leaves a stale matrix row when few closures are left; the next
  closure of the pair then makes Eigen access the matrix outside its size. Proved of every such state: once a pair has lost all its
  closures, or one of two consistent ones, no update with closures of other pairs returns (`C27_false_emptied`, `C27_false_leftover`).
* C26: with the pairwise check disabled the matrix of a pair stays 1×1; removing a closure of a pair that has three or more shrinks it to
  0×0 and the selection then reads outside an empty index vector.
* C28: a re-observation of a known landmark from a pose that is new in the same batch discards all earlier observations.
* C29: where `char` is signed, priors of prefixes of 128 and more are not removed.
* C30, C31: looking up a key inserts it with the identity pose, and alignment then writes that pose to the estimate; with signed `char`
  prefixes of 128 and more sort below the others.
* C35: if a robot's first pose arrives before its first odometry factor, an optimization in between changes the start of its
  trajectory and with it the verdicts on later closures.
* C38: without GNC, an optimization reads as many trailing entries of the weight vector as closures were registered, which can be
  more than the vector has.
* C39, C40: a solver without outlier rejection dereferences a null pointer in several calls, and keeps the factors of an update that threw.
* C71: an update that throws `out_of_range` after odometry was stored (the case of C27) leaves that odometry out of the graph until another update succeeds, and repeating the update throws "key exists".
* C102: outside mode VERBOSE a closure refused by the odometry check vanishes without a message. The message after an optimization with GNC calls the number of consistent closures the number of closures. "discarding" is said of observations of a landmark that are registered and counted. The warning that a robot has no closures to the reference robot is also written when it has, if an end of one is not found on the stored trajectories.
* C73: a call that carries only the first observation of a landmark adds it to the graph but does not renew the number of inliers, so `getNumLCInliers()` depends on which of two unrelated messages came first.
* C74: one outlier that agrees with a single member of the largest set of agreeing closures can be accepted in place of another member; the accepted closures then contradict each other although the largest set is unique.
* C75: the pairwise check depends on which closure arrived first if the two lead in opposite directions, or if the robots turn.
* C76: a closure received again counts as independent evidence; sending a rejected closure often enough displaces the accepted ones.
* C77: an odometry edge whose end value was supplied in an earlier call is not recognized as odometry, fails the odometry check and is dropped silently; an observation of a known landmark that arrives together with the value of the pose it was made from replaces all earlier observations of that landmark.
* C81: a graph that is handed to a new solver is not always kept. A closure between consecutive poses becomes odometry, of two observations of a landmark only the last is kept, and accepted closures that do not all agree may be dropped.
* C82: with PCM_Simple2D what is accepted depends on the unit of length, because the rotation threshold is compared with the x component. Aligning frames depends on it as well, because the standard deviations 0.1 and 0.5 of the averaging are not parameters.
* C83: with the simple methods a NaN in the rotation part of a covariance (and only that) changes what is accepted: the rotation error of such a measurement counts as zero.
* C84: holds as stated; a landmark shared with a robot outside the fleet must be excluded, since observations of it by different robots outvote each other (`C84_false_shared_landmark`).
* C85: holds as stated; the odometry of a robot that was named before only by a closure is attached at a default pose instead of being refused (`C85_false_ungrounded`). With frame alignment an odometry factor whose end has a value that is not a pose makes every later update with factors throw, after its factors were added to the graph (`C85_false_unsited`).
* C86: incremental selection (`setIncremental`) is not only faster: of two groups of the same size it keeps the other one, and it may accept fewer closures than batch selection, or more, because both searches are heuristics.
* C87: `getNumLCInliers` counts accepted closures of ignored prefixes, although the graph does not hold them.
* C88: raising the thresholds can make the solver accept fewer closures, because the clique search is a heuristic (`C88_false_fewer`).
* C89: ignoring a robot does not remove its landmark observations from the graph (`C89_false_landmarks`), and its closures are still counted (`C89_false_count`).
* C41: `forceUpdate` runs outlier rejection exactly as `update` does.
* C44: a factor removed by index comes back at the next rebuild of the graph.
* C45: with the pairwise check disabled, incremental selection keeps at most one closure per pair: only ever the first one registered, and only from the first call that registers exactly one closure of the pair (with two or more new ones `size_t` arithmetic in findCliqueHeu.cpp:141 wraps and none is accepted).
* C46: with incremental selection the closures kept depend on how the closures are divided into updates: of the same four
  closures, one update keeps the first and the last, four updates keep the second and the third.
* C48: odometry with a non-Gaussian noise model dereferences a null pointer.
* C49: the rotation-translation block of saved information matrices is not transposed.
* C52: an observation written from the landmark to the pose gets no matrix row, and the next observation makes Eigen access the matrix outside
  its size; for observations by two robots the second robot's pose is ignored.
* C53: the inverse of a pose with covariance copies the covariance instead of transporting it.
* C94: forwards along odometry without rotation information the accumulated covariance is used with the wrong sign
  (`PoseWithCovariance::between` falls back to the opposite difference when the right one is singular), so good closures are
  rejected; in the other direction they are accepted.
* C54: in 2D the x error is compared with the rotation threshold and (y, angle) with the translation threshold, because GTSAM orders
  the logarithm of Pose2 as (x, y, angle) and the code assumes rotation first; the NaN test for missing rotation and the kept covariance block
  are affected in the same way.
* C55: with frame alignment an odometry factor that starts at a key without value makes the update throw after its factors were added.
* C56: `getNumLCInliers()` with GNC truncates the sum of the weights: closures with weights strictly between 0 and 1 are under-counted.
* C57: with `fix_prev_inliers` the code takes the last `latest_num_lc_` weights, the number of closures ever registered, although the
  weight vector only covers the closures in the graph. After a rejected closure, discarded closures are readmitted or the call throws
  `out_of_range`; removing an accepted closure throws as well.
* C58: for a landmark observed by two robots `getBetween` looks the pose of the second robot up in the trajectory of the first, gets the identity, and so compares with the absolute start of the first robot: moving all supplied poses drops observations.
* C58: a closure to a key that has a value but no odometry makes the graph depend on the initial guess: the trajectory of that robot is
  then started from the supplied value, so moving all supplied poses by one translation rejects a closure that was accepted before.
* C60: `RpgoReadG2oIncremental` adds the closures with `optimize_graph = false` and never optimizes afterwards, so `result.g2o` holds
  the edges of the selected closures and the vertices optimized without them. It refuses a threshold of exactly -1 together with
  incremental selection; any other negative threshold is accepted and switches the checks off.
* C61: the log folder is not written by removals, `ignorePrefix`, `revivePrefix` and updates that may not optimize, so `result.g2o` and the
  matrix files can show closures the solver no longer has; an optimizer that throws leaves a row in one log and none in the other.
* C62: reading a graph file reports success for a `.gr` file without reading it; indices beyond the stated size are accepted and give a
  graph whose finders read outside the array; a missing value of an entry leaves the value of the line before; reading a second file with
  the same object appends to the first graph; a banner of 256 or more characters overflows a buffer.
* C63: `GenerateTrajectories` throws on the first vertex that is not a 3D pose (a landmark, say), before any file is written.
* C64: because of C04, closures accepted for a pair can contradict each other while a closure that agrees with all of them is
  rejected; the same closure can be put into the graph twice; and in batch mode one more closure can lower the number accepted
  (all three for two robots and four to six closures).
* C65: whether an update succeeds can depend on a pair of robots it does not mention: after removal of the only closure between two
  robots, every later batch-mode update with a closure between any two robots throws `out_of_range`.
* C66: in 2D the averaging of frame offsets weighs the error along x as a rotation (0.1) and the rotation error as a translation (0.5):
  the standard deviations are laid out rotation first, GTSAM's Pose2 stores the angle last.
* C67: a GNC setter called after `gncFixInliers()` or `gncBiasOdom()` silently turns the switch off again (default argument).
* C68: with incremental selection `removeLastLoopClosure()` searches from scratch, so adding a closure and removing it again can change which of the other closures are accepted.
* C69: because of C04, observations accepted for a landmark can contradict each other or contain one observation twice. An observation written from the landmark to the pose is registered but never accepted (the code prints that it discards it), and it shifts later ones out of the matrix (C52).
* C93: both g2o programs catch `invalid_argument` only: a number out of range (`1e99`) ends them by an uncaught exception instead of the input warning. `GenerateTrajectories` does not check the number of its arguments.
* C91: comparing observations of one landmark by two robots looks up number 0 of both robots in one robot's trajectory and so creates it there. With frame alignment, an update then raises an exception if no value is known for number 0, that is, if a robot does not start counting at 0.
* C107: with the default verbosity, Levenberg-Marquardt and no outlier rejection every successful optimization dereferences a null pointer in the message after it (`C107_false_same`); `setQuiet()` does not silence the rejection object (`C107_false_quiet`).
* C108: a verbosity outside the enumeration is announced as set to UPDATE, but the rejection object is not silenced (`C108_false_update`).

## Trusted base

Lean 4.33.0's kernel; the axioms propext, Classical.choice and Quot.sound (listed per theorem below); the reading of the C++
source and of the GTSAM/Eigen/STL calls it makes, as recorded in the comments of the model
(GTSAM's documented Jacobians of compose/between, and its component order: Pose3 rotation first, Pose2 translation first). No axioms are added, there is no
`sorry`, and neither `native_decide` nor `bv_decide` is used; concrete witnesses are evaluated by the kernel (`decide +kernel`).

## Rounding

The model's poses are any type with a multiplication, an inverse and a unit. 328 of the 459 theorems of the manifest assume no
law about these operations, so they also hold of rounded pose arithmetic (`Props/Rounding.lean` has a non-associative pose type).
The others assume a group, that is, exact arithmetic; `C10_false_rounding` shows that this can matter. They are:

`C08_between_compose`, `C08_between_node_nonneg`, `C08_compose_monoid`, `C08_inverse`, `C08_rotation_loss_kept`, `C09_running_product`, `C09_running_product_cov`, `C100_all_accepted`, `C100_nothing_lost`, `C100_observations`, `C100_outliers`, `C100_registered`, `C101_majority`, `C101_observations`, `C101_unregistered`, `C102_unaligned`, `C103_elsewhere`, `C103_stretch`, `C106_level`, `C106_matrices`, `C10_independent_of_initial_guess_cov_partial`, `C10_independent_of_initial_guess_partial`, `C12_exact_pass_cov`, `C12_exact_pass_pairwise`, `C12_exact_pass_pairwise_two_robots`, `C12_exact_passes_odometry`, `C13_both_reversed_partial`, `C14_between_backwards`, `C14_between_compose`, `C14_compose_assoc`, `C14_ofFactor_posSemidef`, `C14_posDef`, `C14_posSemidef`, `C14_rotation_loss_kept`, `C30_keys`, `C30_laws_cov`, `C30_laws_simple`, `C30_partial`, `C30_relative_partial`, `C31_partial`, `C46_any_split`, `C46_any_split_cov`, `C50_odometry_check`, `C50_registered`, `C51_matrix`, `C51_opposite_direction`, `C51_pairwise_check`, `C52_check_partial`, `C52_two_robots`, `C53_inverse_partial`, `C53_odometry_check_partial`, `C53_pairwise_check_partial`, `C54_false_2d`, `C54_pairwise_partial`, `C54_thresholds_partial`, `C58_gauge_cov_partial`, `C58_gauge_partial`, `C58_guess_irrelevant_cov_partial`, `C58_guess_irrelevant_partial`, `C60_same_graph`, `C65_batch`, `C65_batch_cov`, `C65_only_the_pair_matters`, `C65_only_the_pair_matters_cov`, `C65_without_the_others`, `C65_without_the_others_cov`, `C66_average_partial`, `C66_cost_2d`, `C66_exact`, `C66_false_2d`, `C66_l2_partial`, `C70_guess_cov_partial`, `C70_guess_partial`, `C72_only_the_observer_matters_cov_partial`, `C72_only_the_observer_matters_partial`, `C72_without_the_others_cov_partial`, `C72_without_the_others_partial`, `C73_any_arrival_cov_partial`, `C73_any_arrival_partial`, `C73_inliers_partial`, `C73_swap_cov_partial`, `C73_swap_partial`, `C74_group_accepted`, `C74_observations`, `C74_true_closures`, `C74_true_closures_cov`, `C75_any_order`, `C75_either_first`, `C76_again`, `C76_copies_agree`, `C76_copies_agree_cov`, `C76_each_copy_counts`, `C81_agreeing`, `C81_restart`, `C81_restart_cov`, `C82_average`, `C82_matrices`, `C82_rigid`, `C82_units`, `C82_units_cov`, `C83_noise`, `C84_fleet`, `C84_fleet_cov`, `C84_two_fleets`, `C84_two_fleets_cov`, `C86_accepted`, `C86_accepted_cov`, `C86_graph`, `C86_graph_cov`, `C86_registered`, `C86_registered_cov`, `C88_accepted`, `C88_accepted_cov`, `C88_registered`, `C88_registered_cov`, `C89_forgotten`, `C89_forgotten_cov`, `C92_estimate`, `C92_forced`, `C92_redrawn`, `C94_odometry_check_partial`, `C94_pairwise_check_partial`, `C94_translation_only_partial`, `C97_average`, `C97_axes`, `C97_axes_cov`, `C97_matrices`, `C97_rotation`, `C98_own_axes`, `C99_judged_alike`, `C99_small_changes`.

The norms compared with the thresholds are elements of an ordered field.

## Modelled

| source | model | what |
|---|---|---|
| `include/KimeraRPGO/utils/TypeUtils.h` | `Model/Basic`, `Model/State` | keys, `ObservationId` and its hash, `Measurements`, edges |
| `include/KimeraRPGO/utils/GeometryUtils.h` | `Model/Geometry` | both pose types: compose, inverse, between, norms |
| same file, `avg_trans_norm`/`avg_rot_norm`, `getRotationDim`/`getTranslationDim` | `Model/Norms` | which components of the logarithm are read |
| `examples/RpgoReadG2o.cpp`, `examples/RpgoReadG2oIncremental.cpp` | `Model/Tools`, `Model/Main` | `main` with the argument checks (`stoi`, `stof`, `stod` external, no NaN), the calls made on the solver for a file, the parameters set; the prior's noise left out |
| `include/KimeraRPGO/utils/GraphUtils.h`, `src/utils/GraphUtils.cpp` | `Model/Pcm`, `Model/MaxClique*` | `Trajectory::getBetween`, the three clique entry points |
| `max_clique_finder/graphIO.cpp`, `findClique.cpp`, `findCliqueHeu.cpp`, `utils.cpp` | `Model/GraphIO`, `Model/MaxClique`, `Model/MaxCliqueHeu`, `Model/MatrixMarket` | all three finders with their buffers; both graph readers and the statistics (files after tokenising; entry lines with fewer than two integers are left out) |
| `examples/GenerateTrajectories.cpp` | `Model/Trajectories`, `Model/Main` | splitting and writing, not reading the file; the arguments |
| `include/KimeraRPGO/outlier/Pcm.h` | `Model/Pcm`, `Model/Solver` | every member function (the two log writers in `Model/Log`) |
| `include/KimeraRPGO/SolverParams.h`, constructor of `RobustSolver` and `Pcm` | `Model/Params` | all setters, thresholds and modes |
| `src/GenericSolver.cpp`, `include/KimeraRPGO/GenericSolver.h`, `src/RobustSolver.cpp`, `include/KimeraRPGO/RobustSolver.h` | `Model/Solver` | every public call |
| the messages of `Pcm.h`, `src/RobustSolver.cpp`, `src/GenericSolver.cpp` written through `Logger.h` | `Model/Print` | which messages, in which order, with their keys and counts; exceptions are listed in the file |
| `GenericSolver.h:setQuiet` | `Model/Quiet` | clears the flag of the solver, not that of the rejection object |
| the switch over the verbosity, `RobustSolver.cpp` 73-90 | `Model/Verbosity` | flags and messages for every number behind the enumeration |
| the files written by `update`, `forceUpdate`, `saveData` and `Pcm::removeOutliers` | `Model/Log` | rows and contents; times, headers and writing errors left out, folder empty at the start |
| `Pcm.h` `gncRobustPoseAveraging` | `Model/Averaging` | the problem handed to the GNC optimizer; its solution is external |
| `SolverParams.h` tuning members, `RobustSolver.cpp` 123-166, 220-260 | `Model/Tuning` | the settings handed to the optimizers |
| `src/Logger.cpp` `writeG2o` | `Model/Save` | records written for a graph and an estimate |

## Not modelled

Of what is printed the durations, the distances of the consistency checks, warnings about unsupported settings, and GTSAM's own output; timing, file names; how the example programs read their files (of the two g2o programs the calls and parameters are modelled); the numerical optimizers (arbitrary functions); the
distance matrix next to the adjacency matrix (written, never read; it is assigned, grown and shrunk in the same statements as the adjacency matrix, so its block operations are in range exactly when those of the adjacency matrix are); floating-point rounding (but see *Rounding*), `int` overflow of hop counts (excluded by C78 below 357 913 941 odometry factors) and of the numbers in the clique search (excluded by C95 up to 46 341 closures per pair); memory allocation
failure; concurrency (the library has no threads of its own).

## Axioms each theorem depends on

Output of `#print axioms`, grouped.

* **none**: `C62_false_gr`, `C62_false_twice`, `C62_readGraph`

* **propext**: `C02_joined_symm_irrefl`, `C04_false_duplicate`, `C04_false_not_joined`, `C08_between_compose`, `C08_compose_monoid`, `C08_inverse`, `C08_rotation_flag`, `C08_rotation_loss_kept`, `C14_rotation_loss_kept`, `C32_one_entry_per_pair`, `C32_pair_equality`, `C32_pair_equivalence`, `C32_pair_hash`, `C54_blocks`, `C54_norms_2d`, `C54_norms_3d`

* **Quot.sound**: `C102_asked`

* **propext, Quot.sound**: `C08_between_node_nonneg`, `C108_false_update`, `C108_flag`, `C108_last`, `C12_exact_pass_cov`, `C12_exact_pass_pairwise`, `C12_exact_pass_pairwise_two_robots`, `C12_exact_passes_odometry`, `C13_both_reversed_partial`, `C15_monotone_cov_partial`, `C15_monotone_partial`, `C15_negative_disables_partial`, `C15_zero_rejects_cov_partial`, `C18_partition`, `C30_laws_cov`, `C30_laws_simple`, `C33_odometry_no_landmark`, `C33_odometry_same_robot`, `C33_overflow_crosses`, `C45_negative`, `C62_extension`, `C62_false_header`, `C62_false_missing_value`, `C62_refused_iff`, `C63_false_landmark`, `C67_align`, `C67_false_switches`, `C75_either_first`, `C76_copies_agree`, `C76_copies_agree_cov`, `C82_rigid`, `C93_batch_dies`, `C93_batch_runs`, `C93_batch_warns`, `C93_incremental_dies`, `C93_trajectories`

* **propext, Classical.choice, Quot.sound**: `C01_findMaxClique_exact`, `C01_findMaxClique_result`, `C02_read_faithful`, `C03_heuristic_size`, `C04_heuristic_indices_partial`, `C05_all_consistent`, `C05_cluster_exact`, `C05_incremental_cluster`, `C06_empty_matrix`, `C06_no_out_of_range`, `C07_history_monotone`, `C07_incremental_first`, `C07_incremental_zero_or_larger`, `C07_too_many_new`, `C09_running_product`, `C09_running_product_cov`, `C100_all_accepted`, `C100_false_lever`, `C100_lengths`, `C100_nothing_lost`, `C100_observations`, `C100_outliers`, `C100_registered`, `C101_false_diluted`, `C101_majority`, `C101_observations`, `C101_unregistered`, `C102_accounted`, `C102_apart`, `C102_discarding`, `C102_false_gnc`, `C102_false_silent`, `C102_false_unaligned`, `C102_landmarks`, `C102_named`, `C102_others`, `C102_quiet`, `C102_same`, `C102_totals`, `C102_unaligned`, `C102_unrejected`, `C102_warnings`, `C103_elsewhere`, `C103_false_between`, `C103_stretch`, `C104_false_aligned`, `C104_false_half`, `C104_kept`, `C104_throw`, `C105_graph`, `C105_judgement`, `C106_false_same_thresholds`, `C106_level`, `C106_matrices`, `C107_call`, `C107_false_quiet`, `C107_false_same`, `C107_mixed`, `C107_rest`, `C107_session`, `C107_silent`, `C108_construction`, `C108_messages`, `C108_quiet_same`, `C108_same`, `C108_transcript`, `C10_false_rounding`, `C10_false_without_odometry`, `C10_independent_of_initial_guess_cov_partial`, `C10_independent_of_initial_guess_partial`, `C11_no_division_by_zero`, `C13_false`, `C13_false_both`, `C14_between_backwards`, `C14_between_compose`, `C14_compose_assoc`, `C14_ofFactor_posSemidef`, `C14_posDef`, `C14_posSemidef`, `C15_false_landmarks`, `C15_false_raising_from_negative`, `C15_zero_rejects_partial`, `C16_layout`, `C16_odometry_kept`, `C17_false_first_observation`, `C17_provenance_partial`, `C18_effect`, `C19_batch`, `C19_never_decreases`, `C19_other`, `C20_graph_size`, `C20_inliers_le_closures`, `C21_estimates_kept_one_robot_partial`, `C21_estimates_kept_partial`, `C21_false_alignment`, `C21_optimizer_not_run`, `C22_matrix`, `C23_false_landmarks`, `C23_ignored_stay_out_partial`, `C24_ignore_idempotent`, `C24_ignored_set`, `C24_revive_undoes_ignore`, `C25_registered`, `C25_returns_last`, `C25_reverse_order`, `C26_chronological_partial`, `C26_false_exhausted`, `C26_false_interleaved`, `C26_false_unchecked`, `C26_pair_partial`, `C27_false_emptied`, `C27_false_leftover`, `C27_false_mismatch`, `C27_false_out_of_range`, `C27_leftover_arises`, `C27_update_partial`, `C28_false_overwritten`, `C28_kept_partial`, `C28_survives_partial`, `C29_false_high_prefix`, `C29_idempotent`, `C29_no_rejection_partial`, `C29_removes_priors_partial`, `C30_false_late`, `C30_false_orphan`, `C30_keys`, `C30_partial`, `C30_relative_partial`, `C31_false_high_prefix`, `C31_partial`, `C34_estimate_keys`, `C34_keys_with_failures`, `C34_types`, `C35_false_late_start`, `C35_same_graph_partial`, `C36_clear_undoes`, `C36_never_enter`, `C36_temp_factors`, `C36_temp_isolated`, `C36_temp_keys`, `C36_temp_optimized`, `C37_known_inliers`, `C37_one_weight_per_factor`, `C38_exact`, `C38_false_ignore`, `C38_false_many_closures`, `C38_optimize_partial`, `C39_false_getNumLC`, `C39_false_remove_last`, `C39_false_verbose`, `C39_graph`, `C39_keeps_everything`, `C39_no_undefined_behaviour_partial`, `C39_removed_edge`, `C40_duplicate_key_partial`, `C40_estimate_kept`, `C40_false_no_rejection`, `C40_retry_fails`, `C41_false_rejects`, `C41_force_update_partial`, `C42_false`, `C42_last_setter_partial`, `C43_edge_info`, `C43_edges`, `C43_info`, `C43_refuses`, `C43_swap`, `C43_vertices`, `C44_false_rebuild`, `C44_remove_by_index`, `C44_stay_out_partial`, `C45_false_incremental`, `C45_incremental_call`, `C45_incremental_one`, `C45_keeps_all_partial`, `C46_any_split`, `C46_any_split_cov`, `C46_closures`, `C46_false_incremental`, `C46_odometry`, `C47_reoptimize`, `C47_safe`, `C48_false_closure`, `C48_false_odometry`, `C48_partial`, `C48_returns_only_if`, `C49_false`, `C49_partial`, `C50_odometry_check`, `C50_registered`, `C51_matrix`, `C51_opposite_direction`, `C51_pairwise_check`, `C52_check_partial`, `C52_false_reversed`, `C52_false_two_robots`, `C52_matrix_partial`, `C52_two_robots`, `C53_false`, `C53_inverse_partial`, `C53_odometry_check_partial`, `C53_pairwise_check_partial`, `C54_false_2d`, `C54_false_2d_run`, `C54_pairwise_partial`, `C54_thresholds_partial`, `C55_false_align`, `C55_updates_succeed_partial`, `C56_count_partial`, `C56_false_fraction`, `C56_le_closures`, `C57_false_out_of_range`, `C57_false_readmits`, `C57_false_removal`, `C57_reoptimize_partial`, `C58_false_stray_closure`, `C58_false_two_observers`, `C58_gauge_cov_partial`, `C58_gauge_partial`, `C58_guess_irrelevant_cov_partial`, `C58_guess_irrelevant_partial`, `C59_aligned`, `C59_estimate`, `C59_generic`, `C59_overwrite`, `C60_batch_estimate`, `C60_both_run`, `C60_false_disabled`, `C60_false_stale`, `C60_incremental_estimate_partial`, `C60_same_graph`, `C61_adjacency_partial`, `C61_false_rows`, `C61_false_stale`, `C61_off`, `C61_rejection`, `C61_result_partial`, `C61_save`, `C61_status`, `C61_transparent`, `C62_false_index`, `C62_file_read_partial`, `C62_finders_partial`, `C62_matrix_read`, `C62_statistics_partial`, `C62_values_partial`, `C63_files_partial`, `C63_throws_iff`, `C64_accepted`, `C64_all`, `C64_consistent_partial`, `C64_false_contradiction`, `C64_false_doubled`, `C64_false_fewer`, `C64_maximal`, `C64_single`, `C65_batch`, `C65_batch_cov`, `C65_false_removal`, `C65_only_the_pair_matters`, `C65_only_the_pair_matters_cov`, `C65_without_the_others`, `C65_without_the_others_cov`, `C66_average_partial`, `C66_cost_2d`, `C66_exact`, `C66_false_2d`, `C66_l2_partial`, `C67_gnc_partial`, `C67_plain`, `C68_false_incremental`, `C68_graph_partial`, `C68_restored_partial`, `C68_undo_partial`, `C69_accepted`, `C69_all`, `C69_consistent_partial`, `C69_false_contradiction`, `C69_false_doubled`, `C69_false_reversed`, `C69_single`, `C69_unaffected`, `C70_any_order_partial`, `C70_false_positions`, `C70_guess_cov_partial`, `C70_guess_partial`, `C71_caught_partial`, `C71_failed_optimization`, `C71_false_out_of_range`, `C71_refused`, `C71_refused_plain`, `C71_stand_in`, `C72_only_the_observer_matters_cov_partial`, `C72_only_the_observer_matters_partial`, `C72_without_the_others_cov_partial`, `C72_without_the_others_partial`, `C73_any_arrival_cov_partial`, `C73_any_arrival_partial`, `C73_false_inliers`, `C73_false_same_pair`, `C73_inliers_partial`, `C73_swap_cov_partial`, `C73_swap_partial`, `C74_false_one_agreement`, `C74_group_accepted`, `C74_observations`, `C74_true_closures`, `C74_true_closures_cov`, `C75_any_order`, `C75_false_directions`, `C75_false_tie`, `C75_false_turning`, `C76_again`, `C76_each_copy_counts`, `C76_false_outvoted`, `C77_ahead`, `C77_ahead_plain`, `C77_ahead_plain_many`, `C77_false_landmark`, `C77_false_observer`, `C77_false_odometry`, `C77_false_trigger`, `C78_counts`, `C78_no_overflow`, `C78_same_outcome`, `C79_again`, `C79_asked`, `C79_postponed`, `C79_priors`, `C80_renaming`, `C80_returns`, `C81_agreeing`, `C81_estimate`, `C81_restart`, `C81_restart_cov`, `C82_average`, `C82_matrices`, `C82_units`, `C82_units_cov`, `C83_noise`, `C84_fleet`, `C84_fleet_cov`, `C84_two_fleets`, `C84_two_fleets_cov`, `C85_edits`, `C85_false_ungrounded`, `C85_false_unsited`, `C85_generic`, `C85_optimizing`, `C85_outcome`, `C85_plain`, `C85_plain_optimizing`, `C85_returns_iff`, `C86_accepted`, `C86_accepted_cov`, `C86_graph`, `C86_graph_cov`, `C86_registered`, `C86_registered_cov`, `C87_at_the_end`, `C87_graph`, `C87_judgement`, `C88_accepted`, `C88_accepted_cov`, `C88_registered`, `C88_registered_cov`, `C89_forgotten`, `C89_forgotten_cov`, `C90_history`, `C90_no_trace`, `C91_numbers`, `C91_returns`, `C91_start`, `C92_estimate`, `C92_forced`, `C92_redrawn`, `C93_false_disabled`, `C93_incremental_runs`, `C93_incremental_warns`, `C94_false`, `C94_odometry_check_partial`, `C94_pairwise_check_partial`, `C94_translation_only_partial`, `C95_bound_exact`, `C95_closures`, `C95_fits`, `C95_observations`, `C96_exactly`, `C96_fleet`, `C96_measurements`, `C96_parameters`, `C96_plain`, `C97_average`, `C97_axes`, `C97_axes_cov`, `C97_false_2d`, `C97_false_origin`, `C97_matrices`, `C97_rotation`, `C98_false_directions`, `C98_own_axes`, `C99_judged_alike`, `C99_small_changes`
