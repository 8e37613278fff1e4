# distclus in Lean 4 — design

## Layout

* `lean/Verif/Model/*`  the model of the Go code, function by function, each definition citing the file and lines it models.
* `lean/Verif/Spec/*`   small specifications that do not mention the model (nearest, last n, mean, warping path, workflow …).
* `lean/Verif/Proof/*`  helper lemmas.
* `lean/Verif/Props/*`  the property theorems, with a non-vacuity `example` beside each, and the negations with witnesses where the code violates the property.
* `properties.jsonl`, `MANIFEST.json`, `seeded/LOG.jsonl` as asked.

## Modelling decisions

* **Floats.** `float64` is a type parameter `F` with the standard operation classes (`Add`, `Sub`, `Mul`, `Div`, `LT`, `LE`) and no laws. A theorem adds exactly the laws it needs. Levels: (a) no law at all (bookkeeping, schedules, indices) — true of IEEE floats; (b) order laws and monotone addition only (nearest, DTW) — true of IEEE floats without NaN; (c) `ℝ` or an ordered field (means, losses, metric laws) — exact arithmetic, rounding is *not* covered; (d) `Fl r`, the numbers kept by a rounding `r` with the operations rounded (Model/Rounding.lean), of which `binary64` (53 digits, nearest even, exponents from −1074) is an instance: C98–C101 say what rounding does to distances, assignments, means and losses. In (d) there is no overflow and no fused multiply-add, and division by zero is not described. NaN/Inf behaviour is modelled by an explicit type `XReal` (reals plus NaN and ±∞, no rounding). (e) `Ieee f` (Model/Ieee.lean) has all of it, rounding, overflow, infinities and NaN; `float64` is `binary64` with overflow at 2¹⁰²⁴. C131 proves that far from the overflow (e) computes what (d) computes, and that NaN is absorbing in (e), so that C98–C101 and C126 hold of it.
* **Ints** are unbounded `Int`/`Nat` (no property here is about overflow).
* **Elements and spaces.** `core.Elemt` is a type `E`, `core.Space` a structure of functions on `E`. Type assertions are thereby discharged. `nil` elements are `Option.none`.
* **Panics** (index out of range, division by zero, negative make) are `none` in an `Option`-valued model wherever the code can reach one.
* **Random sources** are parameters: a stream of draws, quantified universally.
* **Goroutines** are explicit transition systems; every atomic access to shared state, every lock and every channel operation is one step; unbuffered channels are rendezvous; RWMutex has Go's writer preference. Memory is sequentially consistent.

## Plan per property

| id | what is modelled | proof |
|----|------------------|-------|
| C01 | `Par`'s loop as a recursion producing the launched triples | induction on rank; balanced lengths by arithmetic |
| C02 | workers as lists of writes into shared arrays; all interleavings | disjoint writes commute; equality with MapLabel |
| C03 C04 C05 | `nearest` loop as a fold with (label,min) | loop invariant; NaN case with `XReal` |
| C06 C07 C08 C09 | ReduceDBA fold, partition aggregation | fold invariant per label; weighted-mean algebra |
| C10 C11 | loss folds | fold = sum over elements; pointwise minimality |
| C12 | DBA folds | weighted-mean algebra; permutation invariance |
| C13–C17 | `DataBuffer` as (data, position, pipe) with ops | refinement to "list of stored elements" by induction over histories; C17 negation by witness |
| C18 | heap of slice cells | frame invariant over histories |
| C19 | inductive `Finishing` | structural recursion |
| C20 | polling loop over a timeline | induction over polls |
| C21 C22 | configuration records and checks | case analysis, over all values |
| C23 C24 C25 | k-means strategies | from C06–C11; Lloyd inequality over ℝ |
| C26–C29 | initialisers with explicit draws | loop invariants; C29's zero draw by witness |
| C30–C32 | MCMC impl as a state machine over draws | invariant over histories |
| C33 | double-checked locking transition system, any number of threads | inductive invariant |
| C34 | closed formula over ℝ | monotonicity of log |
| C35–C39 | streaming impl as a state machine | invariants over histories; NaN with `XReal` |
| C40–C43 | euclid, cosinus over ℝ; `Option` for index panics | Minkowski / Cauchy–Schwarz |
| C44–C49 | the flat banded matrix, row-major loops, index arithmetic | inductive invariant on the filled cells; min over paths by induction; C47/C48 negations by witness |
| C50–C52 | Interpolate with its inner scan | loop invariant on the scan pointer |
| C53–C65 | controller: clients, runs, notification loop, locks, channels as one transition system | inductive invariants over all executions; witnesses (executable traces) for the violated claims |
| C66 | Push counter | invariant |
| C67 | Copy of buffers | refinement + witness |
| C68 | timeout goroutine | invariant |
| C69–C71 | streaming Init, Process, Copy | case analysis on the state machine; C69 and C71 are refuted for every state concerned |
| C72 C84 | the MCMC state machine | witness for the refuted claim, exact statement of what is compared |
| C73 | density and sampler of the multivariate t | closed formulas over ℝ |
| C74–C81 | the controller | executable traces for the refuted claims, with a proof that the blocked goroutine stays blocked for ever |
| C58 C82 | the controller with one client | a product invariant (client × run × notification loop) over all schedules, and a progress measure |
| C83 | acceptance ratio | algebra over ℝ |
| C85 C86 | the calls of the implementation, read off the record | simulation of a sequential observer |
| C87 C88 | controller + buffer + k-means | composition of C15, C23, C25, C82, C86 with an invariant on the order of the events |
| C89 | k-means, exact arithmetic | each iteration which moves a centroid decreases the loss strictly, and there are finitely many partitions |
| C90 | the figures as maps in a heap, any goroutines | invariant on the owner of each map; witnesses |
| C91 | the controller with one client | a concrete execution, and an invariant of its continuations |
| C92 | table of accesses (`Model/CtrlAccess`, linked to the transition system by `C92_reads` and `C92_writes`); any clients, one client | pairs of accesses enabled in the same state; invariants of C58 and C82; concrete executions |
| C93 | the controller with any clients | invariant on what the goroutines are about to store; the record of each event is that of a reachable state |
| C94 C95 | the clock of a run (`Model/CtrlTime`), durations chosen by the environment | invariant on `lastIterationTime`; arithmetic |
| C96 | controller after a panic of `impl.Init` (`Model/CtrlPanic`) | invariants on all continuations |
| C97 | both results of the initializers (`Model/InitFull`), `nil` elements explicit; controller | induction on the loops; C93 |
| C98 C99 C100 C101 | any rounding of Model/Rounding.lean, and binary64 | error of each operation, induction over the sums and the tree of combinations; concrete witnesses |
| C102 C103 C104 | ℝ, Lebesgue measure for the draws of `Float64()`; counts of sequences for `Intn` | intervals and boxes of draws; permutations of the positions |
| C105 | names as lists of characters | the letters one by one |
| C106 | ℝ | similarities are affine (strict convexity), then the loops in step |
| C107 | ℝ; binary64 for the witness | clusters of permuted data have the same means |
| C108 | no laws | streaming on a heap of arrays simulates streaming on lists; each step changes one array or leaves it for ever |
| C109 | no laws | every read of the live slice is a centre since |
| C110 | no laws; exact for the means | the record of the controller is a sequence of calls of streaming (C35), an Iterate taking its element between call and return |
| C111 | no laws | C82 (the limit is reached) and C110 (one element for each result) |
| C112 | no laws | for one client the record of the controller is a history of MCMC (C30–C32), by C85 and C93 |
| C113 | the controller, any number of clients | an invariant relating the program counter of each call to the record since it began |
| C114 | no laws; exact for the ratio | the dimension is set by `Init` only; histories of C30 |
| C115 | exact | a t vector is a mixture of normal vectors: the integral over the chi-squared draw is that of a gamma density, then Tonelli |
| C116 | exact | a step depends on the draw only through one comparison, so the draws of given decisions form a box; induction on the queue |
| C117 | a | a measure (distance of the client from its return, iterations left and distance of the run from its end, distance of the notification loop from its next receive) decreases lexicographically with every action which changes the state, except `Iterate` without result |
| C118 | a | by the live view of C18 a read of the retained slice is a read of the current data; positions of stores in a frame modulo its size |
| C119 | a | from some time on the client does not move; then the run begins iterations forever, the loop of the run notifies nothing, so the notification loop does not move either; but by C58 one of these two can move each time an iteration begins |
| C120 | a | the configuration is part of the state, each run has a copy taken when it starts; all invariants of C53-C68 which do not mention the configuration are kept by `Step conf` for every `conf`; the limit of a run with the identity of the acting goroutine; for the hanging `Wait` an invariant of all continuations |
| C121 | c | Huygens' identity around the mean (`mean_shift`), `kmeans_halves`; the counter-example is a rectangle of sides L and 1 started from the two ends of a short side |
| C122 | c, product of Lebesgue measures on [0,1) | Arthur and Vassilvitskii's induction on the number of draws and of uncovered clusters, with distances instead of squares (`Seeding.expect_le`); Tonelli for the successive draws (`mean_succ`) |
| C123 | c | the sum of the cosine distances to x is n(1 - m·x/(ρ‖x‖)) with m the mean; Cauchy–Schwarz; `iterate_spec`, `sum_by_label` |
| C124 | a | invariant of the running means: the dimension of each is that of the first point of the cluster (`reduce_sized`, `aggregate_sized`); transport of the total model (`Embeds`) |
| C125 | a | simulation: each action and each panic is matched by actions of the ordinary system from a state where blocked senders are still before their send (`sim_step`, `sim_panic`), then they are moved (`partly_reachable`) |
| C126 | b | NaN distance to the first centroid sticks in `nearest` (`C04_nan_first_sticks`); bad elements absorb the combinations (`combineOk_bad`) and the losses (`parLoss_nan`) |
| C127 | a | `PlanInv`: the answered calls plus the iterations still due by the open run are the plan of the completed calls (Proof/CtrlPlan.lean); over C82, C85 |
| C128 | a | footprint of the draws in a heap of generators (`Draw.Local`), and a measure which each draw increases (`Ages`) |
| C129 | b, c | set of elements on which no operation panics (`SafeOn`), C47, C52; witnesses by computation |
| C130 | a, c (XReal) | elements out of reach (`Strays`), C23, C126 |
| C131 | e (Ieee) | a homomorphism from the arithmetic without overflow, on a box; closed sets for any labels |
| C132 | e (Ieee) | C35, C100, C131 |
| C133 | a, c | `ViewInv`: what the buffer holds and what the centroids are, by induction on the calls of the implementation (Proof/CtrlAgain.lean), which are those of the plan (C127); over C85, C89 |
| C134 | c | C44, C45 |
| C135 | b, e (Ieee) | histories whose ratios are NaN (`mcmc_frozen`), C21, C30, C131; Γ(172) = 171! ≥ 2¹⁰²⁴ |
| C136 | c | centres which drift: `leads_merge`, `leads_open`, `leads_drift` and the harmonic series; C70, C116, C40 |
| C137 | e | absorption of `Blown` and NaN: `mcmcLoss_absorbs`, `ratio_blown`, `mcmc_rejects`; C126, C131 |
| C138 | a | `workers_none`, `workers_cap`, `workers_short` on the parts of `Par`; C01, C09 |
| C139 | a, d | `SumState`: each loss is a sum in some order (`SumOf`); `SumOf.fl` by induction; C98, C99 for the distances |
| C140 | b, d | `dot_err`, `norm_err`, `quotient_err`, `division_err`; witnesses by the bits of √13 and √10; C03, C04 |
| C141 | d | `choiceLoop_fl` (bounds of the cursor), `SumOf.fl` (C139), C29; witnesses by the bits, `binary64_tie` |
| C142 | a, b | the polymorphic algorithms on `Ref E`; `CombHom.step`, `iterate_spec`; invariant `Shared` of streaming; `see` commutes with every call |
| C143 | a, c | `getKCenters_stored`, invariant of the store under iterations; C83, C84, C104 for the balance; C25, C32, C89 for k-means |
| C144 | b, e | `Blind` (all distances NaN) with the NaN laws of C131; `Faint` (0 or NaN) for the scalar product; underflow of `binary64` |
| C145 | a, b | mcmc followed with partial operations (`Model/McmcPanic.lean`); points of dimension n are embedded in all the points, where it is the model of C30; sizes as in C124 |
| C146 | a, b, c | range of the index of the choice without any law; `HasProb` as in C104 |
| C147 | d | C44 (least path for any monotone addition), C98 (distances of points), sums in any order as in C139 |
| C148 | a, b (`NanCosts`), XReal | the accumulated costs without any law of order (`ideal`), then by rows and columns |
| C149 | a (`Sized`, `SafeOn`, -1 < 0) | the cases of one call of `Process`, then invariants of the sequences of calls |
| C150 | a (`Sized`, `SafeOn`, -1 < 0) | the sizes of the means (C124), then the loop of `PPInitializer` |
| C151 | e (`Ieee f`) | the cursor of `WeightedChoice` stays infinite until an infinite weight makes it NaN |
| C152 | d (`Fl r`) for k-means++, e (`Ieee f`) for mcmc | the sum of the weights is negative; the power is NaN and absorbing (C126) |
| C153 | heap of arrays of C108, readings interleaved with calls | invariant: the slice shows the centres after some of the calls, the last one until the array is replaced |
| C154 | panicking spaces of C124 | a wrong element has no distance to anything; the chunk of the parallel loops which holds it panics |
| C155 | transition system of the controller with honest answers of the condition | nothing else can act: invariant along every continuation; counters and sources (C55, C93), limit (C82) for the skeleton |
| C156 | transition system of the controller with its record | cases on all steps for the origin of errors; explicit executions for the refutations |
| C157 | transition system of the controller with its record | what results say (C113) with the origin of the errors of the status (C156_blame) at every moment of the record |

No property is planned as "not applicable".

## What is modelled

Props/RepoTests.lean evaluates on the model the deterministic tests of the repository, with rational numbers: all the expected values are those of the model. These are checks of the model, not properties.

Every non-trivial function of the packages below; the model cites the lines.

| Go | Lean | remarks |
|----|------|---------|
| core/util.go (`Par`) | Model/Par.lean | the goroutines of a partition are lists of writes, interleaved in any order |
| core/clustering.go, par_assign.go, par_dba.go, par_loss.go, space.go (`DBA`, `WeightedDBA`) | Model/Clust.lean, Model/Basic.lean | wrappers (`ParMapLabel` …) are their `Par` bodies |
| the slices `labels[start:end]` of core/par_dba.go:25 and par_loss.go:12 with their capacity | Model/ParCap.lean | the elements after the length are a second list |
| the references which elements are (core/buffer.go:65-124, streaming/impl.go:47-117, kmeans/init.go:56, kmeans/seq.go:24-33) | Model/Share.lean | the algorithms of the other files run on references; only the caller's vectors have addresses, a write replaces a whole vector and happens between two calls |
| core/buffer.go | Model/Buffer.lean (values), Model/BufferHeap.lean (slices as cells of a heap) | channel of capacity 2000 = FIFO queue |
| core/finish.go, status.go, error.go, `wait` of timeout.go | Model/Finish.lean, Model/Names.lean (`String()`) | |
| core/conf.go and the `Conf` of kmeans, mcmc, streaming, with `NewAlgo` | Model/Conf.lean | `runtime.NumCPU()` and the clock-seeded generator are parameters |
| core/algo.go, ctrl.go, model.go, timeout.go | Model/Ctrl.lean | transition system, see below |
| core/model.go:28-32, core/finish.go:62-71, ctrl.go:313-327 (the figures as a shared map) | Model/Figures.lean | a map write is two steps; a read during a write is Go's fatal error |
| a panic of `impl.Init` recovered by the caller of `Init` or `Play`: core/ctrl.go:22-44, 60-64, 83, 101-132 | Model/CtrlPanic.lean | the state left by the deferred unlocks; then the controller of Model/Ctrl.lean |
| a panic of `impl.Push`, of the condition of `Wait` or of that of the configuration: core/ctrl.go:22-24, 156-173, 262-271, core/timeout.go:69-88 | Model/CtrlUser.lean | the state left by the deferred unlocks and by `recover`; then the controller of Model/Ctrl.lean |
| kmeans/init.go:13-98 with the centroids returned with an error; core/ctrl.go:201-205, core/clustering.go:19-25, 141-153 with `nil` centroids | Model/InitFull.lean | `strings.ToLower` is a parameter; the spaces of the library panic on `nil` |
| the readings of the clock in core/ctrl.go:66-76, 207-239, 242-305, 319-327 (iteration frequency, duration) | Model/CtrlTime.lean | a run alone; every duration is a parameter |
| `Copy` of core/ctrl.go and of the implementations | Model/Copy.lean, Model/CopyLive.lean (while the original stores data), Model/Streaming.lean, Model/StreamCopy.lean (while the original iterates) | no data race inside one element |
| kmeans/* | Model/KMeans.lean | `Initializer`s with explicit draws |
| kmeans/init.go (the initializers) with operations which panic | Model/InitPanic.lean | |
| streaming/impl.go with operations which panic | Model/StreamPanic.lean | the state left by a panic is part of the model; goroutines as in Model/Streaming.lean |
| the type assertions of euclid/vectors.go, cosinus/cosinus.go, dtw/series.go | Model/Typed.lean | `Dist`, `Combine` and `Copy` |
| core/util.go, par_dba.go, par_loss.go, clustering.go with operations which panic, and the goroutine of the panic | Model/ParPanic.lean | a panic in a goroutine of `Par` ends the process |
| mcmc/impl.go, seq.go, par.go, store.go, dirac.go, figures.go | Model/Mcmc.lean | |
| mcmc/impl.go, store.go, kmeans/init.go:PPIter, mcmc/multivt.go with operations, densities and samples which panic | Model/McmcPanic.lean | the initializer does not end the process |
| mcmc/multivt.go | Model/MultivT.lean | `distmv`/`gonum` calls by their mathematical definition |
| mcmc/latedistrib.go | Model/LateDistrib.lean | any number of goroutines |
| dtw/series.go as a space whose operations panic, given to the iterations of k-means | Model/DtwKMeans.lean | |
| the generators: kmeans/init.go:101-120, mcmc/seq.go:11-20, mcmc/store.go, mcmc/impl.go:30-34, 64-72, 90-165, core/ctrl.go:374-380 | Model/Gens.lean | generators in a heap, the draws of an iteration in their order; the calls of two algorithms do not overlap |
| streaming/* | Model/Streaming.lean, Model/StreamHeap.lean (slices as cells of a heap) | |
| euclid/vectors.go, cosinus/cosinus.go | Model/Euclid.lean, Model/EuclidHeap.lean | points as lists with index panics, as vectors, and as slices in a heap |
| the operations of `float64` with rounding, `math.Sqrt`, conversion of `int` | Model/Rounding.lean | correctly rounded; `exp`, `log`, `pow` are not used with it |
| the same with overflow, infinities and NaN | Model/Ieee.lean | the exact operation on the extended reals, rounded; one zero |
| template/impl.go | Model/Template.lean | methods which return their zero results |
| dtw/* | Model/Dtw.lean | the flat banded matrix with its stride |

### Not modelled

* `Predict` and `Batch` of core/ctrl.go are not calls of the transition system: `Predict` is `Centroids()` followed by `Assign` (C03); `Batch` is `Stop`, `Play`, `Wait(nil, 0)`, `Stop` by one client, and is treated as these four calls (C82 and C86 for any number of runs, C87 for one). `Copy`, which takes no lock, is not a call of the transition system either (C67, C71, C118, C153).
* `SetConf`, `SetSpace` (core/ctrl.go:329-371) are commented out in the source.
* `SimpleOCModel` (core/model.go:55-105, six getters), `internal/test`; of package `template` (an empty skeleton) the methods of `Impl` only (C155).
* A configuration changed during a run through the pointer returned by `Conf()` (the tests of the repository do it before `Play`): modelled for C120 only (`Model/CtrlConf.lean`, the configuration is part of the state); in all other properties the configuration of the controller is constant. Negative values written without `Verify` are not modelled.
* Type assertions on `Elemt`: outside C154 an element has the type its space expects; `Dim` on a wrong element, and the assertions of mcmc/multivt.go, are not followed.
* Overflow of `int`, floating-point rounding in the statements over ℝ, the distribution of random draws outside C102–C104, C115, C116 and C122 (where `Float64()` is uniform on [0,1) and successive draws are independent), real time in the transition system of the controller (see Model/CtrlTime for what a run does with the clock), panics inside `impl.Init` other than in Model/CtrlPanic, panics inside `impl.Push` or the user's notifier other than in Model/CtrlUser, out-of-memory.

### The controller

* One step is one atomic access, one lock operation, one channel operation or one call/return of the implementation. Following Lipton's reduction, an access made under a lock is merged with the release of the lock when nothing blocking lies between them.
* `statusMutex` is never read-held across a blocking action: it is a plain mutex. `modelMutex` is an `RWMutex` with Go's writer preference.
* Memory is sequentially consistent. `run` reads `algo.status`, and `interrupt` reads `algo.status.Error`, without the mutex; `LateDistrib` reads its flag without the lock. In Go's memory model these are data races, whose consequences are not covered. For a client alone which follows the workflow, or plays until the limit (the hypotheses of C58 and C82), C92 proves that there is no data race on the fields of the algorithm, so that sequential consistency is what Go guarantees; for other usages it gives the list of the accesses which can race.
* The implementation is an adversary which returns anything at any time; so is `conf.Finishing`. Time-outs may fire at any time after they are started.
* `log` is a ghost record of what happened; it is never read by a step. The specifications of the controller are predicates on the record and on the results of the calls.
* In C87/C88 the implementation is no more an adversary: `Spec.Buffered` says that the record is that of `kmeans.Impl`. The read of `Status().Alive()` and the push in the buffer are one step there, and the data read by `Iterate` are those stored when it returns, which is exact because, as proved (`Orderly`), nothing is pushed while an iteration runs in the executions concerned.

## Disagreements between the code and what one expects

All are theorems; the name of the claim is given.

* **Controller, one client.** A second `Batch` can hang for ever: the deferred `recover` of the first run, still going on when the first `Batch` returns, consumes the command Running of the second `Play` and closes its acknowledgement; the second run waits for a command and `Wait` polls for ever (C91). Data races are possible with one client as soon as a run has a limit: pushing while it plays, or playing again (C92). `Play` which fails to initialise keeps `statusMutex`: every later call blocks (C59). `Init`, `Play`, `Pause`, `Stop`, `Play`, all successful, can leave two runs, or none with status Running (C80); a `Play` overlapping the end of the previous run can return nil while its run dies (C79). With automatic plays a single client can block in `Push` for ever (C81: it keeps `modelMutex` for reading while it plays). Data pushed between `Init` and `Play` are not seen by the first iteration, and only 2000 can be pushed (C88). With `IterPerData`, data pushed before `Batch` are forgotten by the initialisation (C82_forgets).
* **Controller, several clients.** `Pause` or `Push` racing with the end of the run (C60, C61), two `Play` on Ready start two runs (C62), whose `Iterate` overlap (C85_two_clients) and pass the limit (C56_overlap); a notifier which calls `Status()` blocks (C63); concurrent `Pause`, resume, `Stop`, `Push` (C74–C78); an automatic play can be lost (C66); a time-out is disabled only by the next `Play` and can finish a later run (C68). A successful `Pause` may have paused nothing yet, its acknowledgement being that of another command (C113_pause_false); a successful `Stop` may leave the algorithm Running, even with one client (C113_stop_false).
* **Errors.** An error of `Iterate` is overwritten by a pending command (C57_error_lost). `Wait` on an algorithm which finished with an error returns nil. `Batch` on a configuration without limit returns `ErrNeverFinish` and leaves the run going.
* **Buffers.** Staged elements are stored after elements pushed later (C17). The copy of a full frame buffer evicts its newest element first (C67); taken while the original works, it may be a state the original never had (C118, C153 for streaming). `Data()` and `RuntimeFigures()` are live views (C18).
* **Figures.** `RuntimeFigures()` returns the map itself, and the check of the limit reads it after releasing the lock: a `Push` at that time, or a client reading its figures while a run ends, can end the process (C90). `C90_coherent` shows that when the process survives the check sees one moment, which is why it is one step in Model/Ctrl.lean.
* **Panics and failures of the initialisation.** A panic of the implementation during an iteration is recovered, one during `Init` or `Play` leaves the algorithm unusable (C96). After a failed initialisation by k-means++ or random draws the centroids are `nil` elements and `Predict` panics (C97).
* **Time.** `IterFreq` is not a maximal number of iterations per second: after a pause or a long iteration two iterations follow at once, and three can start in a second with a frequency of one; above 10⁹, or below about 10⁻¹⁰ where the conversion overflows, there is no limit (C94). The duration figure contains the pauses and 100 ms for each run (C95).
* **Configuration.** `NewAlgo` ignores the result of `Verify`; the degree of parallelism and the number of weights of mcmc are not checked and panic later (C21, C22, C30).
* **Configuration written during a run.** `run` reads `Iter`, `IterPerData` and `Finishing` once, `Wait` reads them each time: a limit lowered or raised during a run is ignored by the run (C120_lowered, C120_raised); `Wait` answers `ErrNeverFinish` about a run which ends by itself (C120_neverFinish), or polls for ever for a run without limit (C120_wait_hangs).
* C157: one client alone, with an implementation without fault and no time-out: after `Batch`, `Play` and `Stop` return nil and the algorithm is Finished with the error of a send on a closed channel (`C157_broken`).
* C156: the time-out of a run is not disabled when the run ends: it makes a Ready algorithm Finished with an error, the next `Play` then starts afresh, and `Wait` may return this error though the run was complete (`C156_late`, `C156_restart`, `C156_wait`).
* C155: `Wait` with a condition of the user and no time-out does not return when the algorithm fails or is interrupted by its own time-out (`C155_failed`, `C155_timed_out`); `Batch` on the skeleton of package `template` never returns (`C155_skeleton_hang`).
* C154: an element of a wrong type is accepted by `Push`; it then ends the run of a sequential k-means and the whole process of a parallel one (`C154_kmeans`); as first element of streaming it stops it for ever (`C154_stream_first`).
* C153: `Copy` of a streaming algorithm which works may hold centres the original never had together (`C153_torn`).
* C152: in the cosine space k-means++ panics on data which are all (2, 3) (`C152_equal`), and mcmc with a norm which is not an integer accepts nothing if (2, 3) is the last initial centroid (`C152_cosine`).
* C151: with a datum at an infinite distance k-means++ draws this datum for every centroid but the first, or panics (`C151_twice`, `C151_euclid_first`); weights `ProbaK` whose sum overflows are accepted and make every iteration panic (`C151_accepted`).
* C150: k-means never makes two iterations on vectors of different dimensions (`C150_dies`), and `PPInitializer` ends the process on them unless the centroids drawn are of the largest dimension (`C150_pp_first`).
* C149: in streaming, an element with fewer coordinates than the others which becomes a centre makes every later iteration panic, the elements being lost one by one (`C149_short`, `C149_first`).
* C148: with a NaN in a series the DTW distance may be NaN one way and +Inf the other way, the path may leave the window (`C148_not_symmetric`, `C148_leaves_window`), and resizing may drop the NaN (`C148_skipped`).
* C146: `ProbaK` is not verified: two weights never add a cluster, four make iterations panic at random, a negative sum or NaN always (`C146_never_grows`, `C146_prob`, `C146_negative`).
* C145: `Dim` of `MultivT` is not checked against the data: larger, every iteration panics; smaller, the first iteration ends the process, even with the sequential strategy (`C145_larger`, `C145_ends`).
* C144: `Cosinus` divides by the norms without a test: a null vector makes k-means++ panic, freezes mcmc and, first or second, reduces streaming to one cluster; a vector whose norm underflows is at the distance -Inf (`C144_cosine`, `C144_tiny`).
* C143: `Dirac.Pdf` returns 1 where a log-density is expected (0): the acceptance is biased by a factor e for each cluster removed (`C143_ratio`, `C143_default`). `Init` does not reset the centre store: a second run proposes the centres of the first one (`C143_restart`).
* C142: elements are shared with the caller: `Push` of streaming keeps the reference and the centres of cardinality 1 are the caller's vectors, and `PPInitializer` does not copy the first centroid (it copies the others): a client who reuses a vector changes the clusterings already returned (`C142_reused`, `C142_pp_shared`).
* C141: rounding makes `WeightedChoice` read past the weights for draws next to 1, although the weights sum to 1: `ProbaK` = {0.29, 0.69, 0.02} and the draw 1 - 2⁻⁵³ (`C141_panics`); an mcmc run of 2⁵² iterations is needed to expect it.
* C140: in `float64` the cosine distance of a vector to itself may be negative (-2⁻⁵² for (2, 3)); `nearest` takes a negative minimum for 'none yet', so that the element is labelled with a later centroid, however far (`C140_own_label`), and k-means may destroy a perfect clustering (`C140_kmeans`).
* C139: `ParTotalLoss` and `TotalLoss` do not return the same number in `float64` (`C139_differ`): with mcmc the same seed and data give other losses, hence perhaps other acceptances, on another number of processors.
* C138: `labels[start:end]` in `parDBAForLabels` and `parLossForLabels` is bounded by the capacity of the slice, not by its length: with too few labels the parallel functions may read labels after the end of the slice where the sequential functions panic (`C138_hidden_labels`).
* C137: neither `Push` nor `Init` checks the data: one point with an infinite coordinate makes every loss `+Inf` or NaN, so that mcmc keeps its centroids for ever (`C137_frozen`, `C137_own`). `Verify` accepts a negative `Amp`, with which mcmc looks for large losses (`C137_prefers_loss`, `C137_seeks_infinity`).
* C136: in streaming a centre moves away from the place where it was opened, so that a new one can be opened there: the number of centres is not bounded by the spread of the data (`C136_unbounded`). `Verify` accepts a negative `OutRatio`, with which every element becomes a centre (`C136_negative_ratio`).
* C135: `mcmc.Conf.Verify` accepts a negative `B`, with which nothing is ever accepted (`C135_negative_b`).
* C135: `NewMultivT` computes `log(Γ((dim+Nu)/2)/Γ(Nu/2))` with `math.Gamma` and not `math.Lgamma`: from dimension 341 on (default `Nu`) every density is infinite or NaN and mcmc never accepts a proposal (`C135_dimension`, `C135_threshold`).
* C135: `mcmc.Conf.SetDefaultValues` gives no default to `Amp`; left to 0 the losses do not count (`C135_amp_blind`, `C135_amp_accepts`).
* C135: `propose` calls `proba` with the centres on both sides, so that the density of a proposal does not depend on the centres (`C135_pdf_blind`).
* C134: `dtw.Space.Dist` does not satisfy the triangle inequality, and different series may be at distance 0 and at different distances of a third one (`C134_triangle_false`, `C134_no_constant`).
* C133: when a Ready algorithm is played again after a `Push`, the first iteration of the run does not see the element; with `IterPerData` 1 and one new element the run has no effect (`C133_not_seen`).
* **Large coordinates overflow although the results are representable.** `PointCombine` multiplies by the weights before dividing, `PointDist` squares without scaling: the mean of 2¹⁰²³ and itself is +Inf, the distance between 0 and 2⁵¹² is +Inf and the assignment may then be wrong. Up to 2⁴⁸⁴ nothing overflows (C131).
* **One infinite coordinate takes a cluster of k-means, or ends the making of clusters in streaming.** `Push` does not check the coordinates. In k-means the first cluster is lost; in streaming the maximal distance becomes infinite if the element comes before `OutAfter`, and no cluster is ever added afterwards (C130).
* **K-means on series does not converge.** `Combine` of series is not associative and the mean it makes does not minimise the loss: the loss may grow and the centroids may cycle for ever (C129).
* **A copy of mcmc shares the generator of the original.** `Impl.Copy` makes the implementation with the original's configuration; `uniform` and `store` keep its generator even if `Copy` is given a configuration with another one (C128).
* **Pushing during a run is not reproducible.** With a fixed seed the result of a run still depends on the schedule if elements are pushed while it goes on (`C127_hasty`); it does not if the client waits (C127).
* **One NaN is enough.** Nothing rejects a NaN coordinate. After it k-means and streaming have one cluster, and mcmc accepts nothing; no error is returned (C126).
* **Panics of the user's code.** `impl.Push`, the conditions and `Iterate` may panic without harm to the controller (C125), `impl.Init` may not (C96). A panic of the notifier is in a goroutine where nothing recovers: it ends the process.
* **A panic in a goroutine of `Par` ends the process.** `run` recovers the panics of `Iterate` of its own goroutine only. A point of a wrong dimension, which `Push` accepts, is an error of the run with the sequential strategies and the end of the process with the parallel ones (C124).
* **Cosine k-means does not normalise.** The mean of the cosine space is the arithmetic mean of the vectors, not of their directions. The iterations decrease the loss only when the vectors have the same norm, and only the loss of norm 1 (C123_norms, C123_norm2).
* **k-means++ with distances.** The usual guarantee of k-means++ is for squared distances. With the distances used by the code it holds for the loss of norm 1 (C122_guarantee), not for that of norm 2 which the iterations decrease (C122_norm2).
* **k-means is a local method.** The clustering reached may be worse than the best one by any factor (C121_stuck); nothing in the code (restarts, comparison of losses) reduces this, except the MCMC package which samples among clusterings.
* **Streaming.** `Centroids()` gives the array that the next iterations write in, without a lock: a clustering changes in the hands of the client (C108) and `Predict` during an iteration may return a centroid which is not at the returned distance (C109). An iteration without data is not counted, so `Batch` never returns when the limit is not smaller than the number of elements (C111, C117); `Init` on a running state keeps the old clusters (C69); the copy keeps only the centres (C71); a 0/0 relative distance is NaN (C39). An element equal to a centre may open a second cluster at the same place (C116).
* **MCMC.** The acceptations are not reset by `Init` and may exceed the iterations since (C32_restart_false; seen by a client in C112_second_batch); the loss of the current state is not recomputed when data arrive (C72); the density kept with a proposal is that of the centers about themselves (C84); `MultivT.Pdf` is not the density of `Sample` (C73), which is that of `Pdf` at time 20 t² (C115). `dtw.Space.Dim` is 0 when the first series is empty (C114).
* **DTW.** Without window, the length of the second series silently becomes the window: a first series longer than twice the second panics (C47) and the distance is not symmetric (C48).
* **Distributions.** k-means++ draws proportionally to the distance, not to its square (C102). The moves of the number of clusters of mcmc are in balance with its acceptance only for equal weights of adding and removing (C104).
* **Rounding.** Distinct points can be at distance 0 by underflow (C98), the sequential and parallel iterations of k-means give different centroids (C100), and an iteration can increase the loss (C101).
* **Vectors.** The distance is not symmetric on different dimensions: a panic in one direction only (C42).

## Trusted base

* Lean 4.33.0's kernel and the statements of `Verif/Model`, `Verif/Spec` and of the theorems in `Verif/Props`; Mathlib's definitions where a statement mentions them (reals, `Finset.sum`, `Real.sqrt`, `EuclideanSpace`, `MeasureTheory.volume`, limits).
* The reading of the Go source recorded in the comments of the model, and of the semantics of Go (channels, mutexes, slices, order of evaluation).
* No axiom is declared; no `sorry`, `native_decide`, `bv_decide`. `decide +kernel` is used for witnesses only (evaluation by the kernel).

Axioms per theorem (p = `propext`, c = `Classical.choice`, q = `Quot.sound`), filled by `tools/mkaxioms.py`:

<!-- axioms -->
| claim | theorems (axioms) |
|---|---|
| C01 | `C01_par_even_partition` (qp) |
| C02 | `C02_parMapLabel_eq_mapLabel` (cqp), `C08_parts_schedule_independent` (cqp) |
| C03 | `C03_assign_nearest` (qp), `C03_assign_nearest_linear` (qp), `C03_assign_empty` (p) |
| C04 | `C04_nan_first_sticks` (p), `C04_nan_later_ignored` (qp), `C04_negative_forgotten` (qp) |
| C05 | `C05_mapLabel_assign` (qp) |
| C06 | `C06_reduceDBA` (cqp), `C06_reduceDBA_empty` (p) |
| C07 | `C07_reduceDBA_mean` (cqp) |
| C08 | `C08_parReduceDBA_cards` (cqp), `C08_parReduceDBA_means` (cqp), `C08_euclid` (cqp), `C08_parts_schedule_independent` (cqp) |
| C09 | `C09_forLabels_mapLabel` (qp), `C09_parForLabels` (cqp), `C09_parForLabels_cards` (cqp) |
| C10 | `C10_reduceLoss` (cqp), `C10_parLoss` (cqp), `C10_parLossForLabels` (cqp), `C10_totalLoss` (cqp), `C10_forLabels_mapLabel` (cqp) |
| C11 | `C11_mapLabel_minimises_loss` (cqp) |
| C12 | `C12_dba` (cqp), `C12_dba_perm` (cqp), `C12_weightedDBA` (cqp), `C12_weightedDBA_perm` (cqp) |
| C13 | `C13_infinite_keeps_all` (cqp), `C13_stored_prefix` (p) |
| C14 | `C14_frame_last_n` (cqp), `C14_frame_never_shrinks` (cqp) |
| C15 | `C15_staged_invisible` (p), `C15_no_loss` (cqp), `C15_apply` (cqp) |
| C16 | `C16_push_blocks_iff` (qp), `C16_pipe_bounded` (qp), `C16_batch_accepted_iff` (cqp) |
| C17 | `C17_recency_false` (qp), `C17_recency_partial` (cqp) |
| C18 | `C18_no_alias_with_caller` (cqp), `C18_live_view` (cqp), `C18_infinite_view_constant` (cqp), `C18_frame_view_overwritten` (p) |
| C19 | `C19_nil` (p), `C19_and` (qp), `C19_or` (qp), `C19_iter` (qp), `C19_status` (p) |
| C20 | `C20_wait_iff` (cqp), `C20_deadline_returns` (cqp), `C20_no_deadline` (cqp), `C20_algo_wait` (p), `C20_wait_hides_error` (p) |
| C21 | `C21_kmeans_accepts` (cqp), `C21_kmeans_defaults` (p), `C21_mcmc_accepts` (cqp), `C21_mcmc_defaults` (p), `C21_streaming_accepts` (cqp), `C21_streaming_defaults` (p) |
| C22 | `C22_negative_cpu_accepted` (cqp), `C22_par_panics_iff` (qp) |
| C40 | `C40_metric` (cqp), `euclid_total` (cqp) |
| C41 | `C41_combine` (cqp), `C41_fresh` (cqp), `C41_copy_fresh` (cqp) |
| C42 | `C42_panics_iff` (cqp), `C42_surplus_ignored` (cqp), `C42_not_symmetric` (p) |
| C43 | `C43_cosine` (cqp), `C43_zero_nan` (cqp), `cosinus_total` (cqp) |
| C23 | `C23_iterate` (cqp), `C23_seq_members` (cqp), `C23_impl` (cqp), `C23_run` (cqp), `C23_par_bad_degree` (qp), `C23_panics` (cqp) |
| C24 | `C24_iterate` (cqp), `C24_run` (cqp), `C24_euclid` (cqp), `C24_rounding_differs` (p) |
| C25 | `C25_loss_step` (cqp), `C25_loss_run` (cqp) |
| C26 | `C26_given` (cqp), `C26_given_length` (cqp) |
| C27 | `C27_rand` (cqp), `C27_negative_panics` (qp) |
| C28 | `C28_ppIter` (cqp), `C28_ppInitializer` (cqp), `C28_zero_draw_panics` (qp), `euclid_pseudoMetric` (cqp) |
| C29 | `C29_weightedChoice` (cqp), `C29_null_iff` (cqp), `C29_zero_draw` (qp), `C29_not_positive` (p), `C29_nan` (cqp) |
| C44 | `C44_C45_dtw` (cqp) |
| C45 | `C44_C45_dtw` (cqp) |
| C46 | `C46_storage` (qp), `C46_matrix` (cqp) |
| C47 | `C47_dist_panics_iff` (cqp), `C47_combine_panics_iff` (cqp), `C47_newDTW_panics` (cqp), `C47_never_panics_false` (qp) |
| C48 | `C48_symmetric_partial` (cqp), `C48_symmetric_false` (qp) |
| C49 | `C49_identity` (cqp), `C49_window_mono` (cqp) |
| C50 | `C50_resize` (cqp), `C50_edge_cases` (cqp) |
| C51 | `C51_interpolate` (cqp), `C51_null_factor` (p) |
| C52 | `C52_dba` (cqp), `C52_combine` (cqp) |
| C35 | `C35_stream` (cqp), `C35_calls` (qp), `C35_no_panic` (cqp) |
| C36 | `C36_push` (cqp), `C36_new` (qp), `C21_streaming_accepts` (cqp) |
| C37 | `C37_cards` (cqp) |
| C38 | `C38_mass` (cqp), `C38_euclid` (cqp) |
| C39 | `C39_monotone` (cqp), `C39_outlier` (p), `C39_zero_distance` (cqp), `zeroTest_xreal` (cqp) |
| C69 | `C69_reinit` (cqp) |
| C70 | `C70_process` (qp), `C70_decision` (cqp) |
| C71 | `C71_copy` (qp) |
| C30 | `C30_range` (cqp), `C30_moves` (cqp), `C30_accepted` (cqp), `C30_no_panic` (cqp), `initContract_given` (cqp), `initContract_rand` (cqp), `initContract_pp` (cqp), `C30_four_weights_panic` (cqp), `C30_zero_weights` (cqp) |
| C31 | `C31_store_contents` (cqp), `C31_get_stored` (cqp), `C31_get_new` (cqp), `C31_get_add` (cqp), `C31_size_gap` (p) |
| C32 | `C32_iterate` (p), `C32_count` (qp), `C32_at_most` (qp), `C32_ratio_ge_one` (p), `C32_improvement_accepted` (cqp), `C32_restart_false` (cqp) |
| C33 | `C33_builds_once` (qp), `C33_exclusive` (qp), `C33_no_deadlock` (qp) |
| C34 | `C34_panics_iff` (cqp), `C34_symmetric` (cqp), `C34_translation` (cqp), `C34_decreasing` (cqp), `C34_maximum` (cqp) |
| C72 | `C72_loss_partial` (cqp), `C72_loss_false` (cqp) |
| C73 | `C73_sample` (cqp), `C73_pdf_scale` (cqp), `C73_pdf_sample_mismatch` (cqp) |
| C53 | `C53_coherent` (cqp), `C53_history` (cqp), `C53_observed` (cqp) |
| C54 | `C54_refused` (cqp), `C54_interleaved` (qp), `C54_init_end` (qp), `C54_accepted` (cqp) |
| C55 | `C55_counters` (cqp), `C55_figures` (cqp), `C55_pushes` (cqp), `C55_iterations` (cqp) |
| C64 | `C64_notified` (cqp), `C64_all` (cqp) |
| C66 | `C66_decision` (cqp), `C66_start` (cqp), `C66_period` (qp), `C66_overlap_loses_start` (qp) |
| C59 | `C59_failed_play` (cqp) |
| C60 | `C60_orphan` (cqp), `C60_pause_at_end` (cqp) |
| C61 | `C61_push_recover` (cqp), `C61_witness` (cqp) |
| C62 | `C62_two_runs` (qp) |
| C63 | `C63_notifier` (cqp), `C63_witness` (cqp) |
| C74 | `C74_two_pauses` (cqp), `C60_orphan` (cqp) |
| C75 | `C75_two_resumes` (qp) |
| C76 | `C76_stop_overtaken` (qp) |
| C77 | `C77_push_reinit` (cqp), `C77_witness` (cqp) |
| C78 | `C78_push_writer` (cqp), `C78_witness` (cqp) |
| C79 | `C79_play_at_end` (qp) |
| C56 | `C56_limit` (cqp), `C56_one_run` (cqp), `C56_overlap` (qp) |
| C57 | `C57_after_init` (cqp), `C57_saved` (cqp), `C57_error` (cqp), `C57_panic` (cqp), `C57_error_lost` (qp) |
| C65 | `C65_close` (cqp), `C65_unlock` (cqp), `C65_holder` (cqp) |
| C67 | `C67_data` (cqp), `C67_same_future` (cqp), `C67_full_frame` (cqp), `C67_evicts_newest` (none), `C67_independent` (cqp) |
| C68 | `C68_fired` (cqp), `C68_last` (cqp), `C68_interrupts` (cqp), `C68_stale` (qp), `C68_stale_run` (qp) |
| C80 | `C80_two_runs` (qp), `C80_lost_play` (qp) |
| C81 | `C81_push_alone` (cqp), `C78_push_writer` (cqp) |
| C58 | `C58_results` (cqp), `C58_status` (cqp), `C58_returns` (cqp) |
| C82 | `C82_results` (cqp), `C82_status` (cqp), `C82_limit` (cqp), `C82_bound` (cqp), `C82_batch` (cqp), `C82_returns` (cqp), `C82_forgets` (qp) |
| C83 | `C83_ratio` (cqp), `C83_balance` (cqp) |
| C84 | `C84_constant` (cqp), `C84_not_density` (cqp) |
| C85 | `C85_serial` (cqp), `C85_serial_batch` (cqp), `C85_two_clients` (qp) |
| C86 | `C86_composition` (cqp), `C86_centroids` (cqp) |
| C87 | `C87_kmeans` (cqp), `C87_count` (cqp), `C87_loss` (cqp) |
| C88 | `C88_first_iteration` (cqp), `C88_not_seen` (qp), `C88_capacity` (cqp) |
| C89 | `C89_strict` (cqp), `C89_stationary` (cqp), `C89_converges` (cqp), `C89_batch` (cqp), `C89_rounding` (p) |
| C90 | `C90_writes` (cqp), `C90_push_crashes` (qp), `C90_end_crashes` (qp), `C90_where` (cqp), `C90_safe` (cqp), `C90_frozen` (cqp), `C90_coherent` (cqp), `C90_values` (cqp), `C90_counts` (cqp) |
| C91 | `C91_second_batch` (qp) |
| C92 | `C92_races` (cqp), `C92_workflow` (cqp), `C92_batch` (cqp), `C92_not_one` (qp), `C92_not_two` (qp), `C92_reads` (qp), `C92_writes` (qp) |
| C93 | `C93_source` (cqp), `C93_given` (cqp), `C93_kept` (cqp), `C93_kmeans` (cqp), `C93_nil` (cqp), `C93_not_nil` (cqp) |
| C94 | `C94_since_start` (qp), `C94_window` (qp), `C94_period` (cqp), `C94_per_second` (cqp), `C94_not_max` (cqp), `C94_unlimited` (cqp), `C94_steady` (qp), `C94_late` (qp) |
| C95 | `C95_run` (qp), `C95_during` (qp), `C95_sum` (qp), `C95_reset` (qp), `C95_monotone` (qp), `C95_period` (qp), `C95_not_iterating` (p) |
| C96 | `C96_play` (cqp), `C96_init` (cqp), `C96_released` (qp), `C96_again` (cqp), `C96_next_play` (cqp) |
| C97 | `C97_given` (cqp), `C97_check` (cqp), `C97_null_set` (cqp), `C97_success` (cqp), `C97_panic` (qp), `C97_predict_panics` (p), `C97_predict` (p), `C97_predict_nil` (p), `C97_shown` (cqp), `C97_after_failure` (cqp), `givenFull_short` (qp), `randFull_short` (qp), `ppFull_short` (qp) |
| C98 | `C98_dist` (cqp), `C98_binary64` (cqp), `C98_dtw` (cqp), `C98_zero_distinct` (cqp) |
| C99 | `C99_nearest` (cqp), `C99_margin` (cqp), `C99_binary64` (cqp) |
| C100 | `C100_combine` (cqp), `C100_iterate` (cqp), `C100_strategies` (cqp), `C100_counts` (cqp), `C100_binary64` (cqp), `C100_strategies_differ` (cqp) |
| C101 | `C101_loss_step` (cqp), `C101_increases` (cqp) |
| C102 | `C102_weightedChoice` (cqp), `C102_weightedChoice_ok` (cqp), `C102_ppIter` (cqp), `C102_ppInitializer` (cqp), `C102_not_squared` (cqp) |
| C103 | `C103_positions` (cqp), `C103_uniform` (cqp), `C103_termination` (cqp), `C103_limit` (cqp) |
| C104 | `C104_accept` (cqp), `C104_nextK` (cqp), `C104_balance` (cqp) |
| C105 | `C105_createInitializer` (cqp), `C105_unknown` (cqp), `C105_given` (cqp), `C105_pp_rand` (cqp), `C105_status` (cqp) |
| C106 | `C106_nearest` (cqp), `C106_iterate` (cqp), `C106_kmeans` (cqp), `C106_loss` (cqp), `C106_given` (cqp), `C106_rand` (cqp), `C106_pp` (cqp), `C106_streaming` (cqp), `C106_streaming_needs_init` (cqp) |
| C107 | `C107_iterate` (cqp), `C107_repeat` (cqp), `C107_run` (cqp), `C107_loss` (cqp), `C107_rounding_differs` (cqp) |
| C108 | `C108_values` (cqp), `C108_view` (cqp), `C108_iterate` (cqp), `C108_live` (cqp), `C108_init` (cqp), `C108_foreign` (cqp), `C108_client_write` (cqp), `C108_stable_false` (p) |
| C109 | `C109_mixed` (cqp), `C109_quiet` (qp), `C109_distance_false` (p) |
| C110 | `C110_no_panic` (cqp), `C110_iterate` (cqp), `C110_init` (cqp), `C110_centroids` (cqp), `C110_means` (cqp) |
| C111 | `C111_batch` (cqp), `C111_hang` (cqp), `C111_perData` (cqp) |
| C112 | `C112_history` (cqp), `C112_centroids` (cqp), `C112_moves` (cqp), `C112_acceptations` (cqp), `C112_batch` (cqp), `C112_second_batch` (cqp) |
| C113 | `C113_init` (cqp), `C113_play` (cqp), `C113_play_err` (cqp), `C113_pause` (cqp), `C113_stop` (cqp), `C113_wait` (cqp), `C113_wait_err` (cqp), `C113_pause_false` (qp), `C113_stop_false` (qp) |
| C114 | `C114_euclid` (none), `C114_mcmc` (qp), `C114_ratio` (cqp), `C114_dtw` (p), `C114_dtw_partial` (none), `C114_dtw_false` (qp) |
| C115 | `C115_pdf` (cqp), `C115_default` (cqp), `C115_total` (cqp), `C115_law` (cqp), `C115_not_density` (cqp) |
| C116 | `C116_element` (cqp), `C116_sequence` (cqp), `C116_mono` (cqp), `C116_median` (cqp), `C116_first` (cqp), `C116_positive` (cqp), `C116_equal` (cqp) |
| C117 | `C117_returns` (cqp), `C117_no_deadlock` (cqp), `C117_spin` (cqp) |
| C118 | `C118_positions` (cqp), `C118_unbounded` (cqp), `C118_room` (cqp), `C118_elements` (cqp), `C118_torn` (cqp) |
| C119 | `C119_returns` (cqp), `C119_starved` (cqp) |
| C120 | `C120_constant` (qp), `C120_kept` (cqp), `C120_limit` (cqp), `C120_lowered` (qp), `C120_raised` (qp), `C120_neverFinish` (qp), `C120_wait_hangs` (cqp) |
| C121 | `C121_one` (cqp), `C121_batch` (cqp), `C121_stuck` (cqp) |
| C122 | `C122_guarantee` (cqp), `C122_measurable` (cqp), `C122_error` (cqp), `C122_norm2` (cqp), `C122_others` (cqp), `C122_iteration` (cqp) |
| C123 | `C123_step` (cqp), `C123_run` (cqp), `C123_norms` (cqp), `C123_norm2` (cqp) |
| C124 | `C124_same` (cqp), `C124_seq` (cqp), `C124_par_crash` (cqp), `C124_par_ok` (cqp), `C124_larger` (cqp), `C124_no_centroid` (cqp), `C124_loss` (cqp), `C124_euclid` (cqp), `C124_cosinus` (cqp), `C124_par_worse` (cqp), `C124_par_panic` (cqp) |
| C125 | `C125` (cqp), `C125_locks` (cqp), `C125_caller` (p), `C125_run` (cqp) |
| C126 | `C126_spaces` (p), `C126_kmeans` (cqp), `C126_collapsed` (cqp), `C126_kmeans_run` (cqp), `C126_stream` (cqp), `C126_stream_run` (cqp), `C126_mcmc_reject` (cqp), `C126_mcmc_init` (cqp), `C126_mcmc_frozen` (p) |
| C127 | `C127_prefix` (cqp), `C127_calls` (cqp), `C127_result` (cqp), `C127_reproducible` (cqp), `C127_buffer` (qp), `C127_mcmc` (qp), `C127_hasty` (qp) |
| C128 | `C128_mcmc` (qp), `C128_kmeans_copy` (qp), `C128_copy_draws` (p), `C128_copy_shares` (cqp), `C128_copy_disturbs` (cqp) |
| C129 | `C129_safe` (cqp), `C129_panics` (cqp), `C129_never_settles` (cqp), `C129_loss_grows` (cqp), `C129_loss_grows_two` (cqp), `C129_order` (cqp), `C129_par_differs` (cqp) |
| C130 | `C130_first` (cqp), `C130_next` (cqp), `C130_run` (cqp), `C130_single` (cqp), `C130_stream_early` (cqp), `C130_stream_late` (cqp), `C130_stream_first` (cqp), `C130_stream_merges` (cqp), `C130_stream_run` (cqp), `C130_spaces` (cqp), `C130_cosine` (cqp), `C130_signs` (cqp) |
| C131 | `C131_distances` (cqp), `C131_combine` (cqp), `C131_kmeans` (cqp), `C131_kmeans_any` (cqp), `C131_cosine` (cqp), `C131_streaming` (cqp), `C131_float64` (cqp), `C131_nan` (cqp), `C131_mean_overflow` (cqp), `C131_dist_overflow` (cqp), `C131_label_overflow` (cqp) |
| C132 | `C132_centres` (cqp), `C132_mass` (cqp), `C132_float64` (cqp), `C132_frozen` (cqp) |
| C133 | `C133_views` (cqp), `C133_batches` (cqp), `C133_again` (cqp), `C133_count` (cqp), `C133_stationary` (cqp), `C133_mean` (cqp), `C133_not_seen` (qp) |
| C134 | `C134_upper` (cqp), `C134_lower` (cqp), `C134_ends` (cqp), `C134_zero` (cqp), `C134_weak_triangle` (cqp), `C134_triangle_false` (qp), `C134_no_constant` (cqp) |
| C135 | `C135_nan_b` (qp), `C135_negative_b` (cqp), `C135_dimension` (cqp), `C135_threshold` (cqp), `C135_amp_default` (cqp), `C135_amp_blind` (cqp), `C135_amp_accepts` (cqp), `C135_pdf_blind` (cqp) |
| C136 | `C136_unbounded` (cqp), `C136_probability` (cqp), `C136_negative_ratio` (cqp), `C136_repeat` (cqp) |
| C137 | `C137_distance` (cqp), `C137_self` (cqp), `C137_loss` (cqp), `C137_reject` (cqp), `C137_frozen` (cqp), `C137_init` (cqp), `C137_own` (cqp), `C137_recovers` (cqp), `C137_seeks_infinity` (cqp), `C137_negative_amp` (cqp), `C137_prefers_loss` (cqp) |
| C138 | `C138_reduceDBA` (cqp), `C138_reduceLoss` (cqp), `C138_dbaForLabels` (cqp), `C138_parDbaForLabels` (cqp), `C138_hidden_labels` (cqp), `C138_exact_capacity` (cqp), `C138_lossForLabels` (cqp) |
| C139 | `C139_total` (cqp), `C139_parTotal` (cqp), `C139_rounding` (cqp), `C139_seq_par` (cqp), `C139_euclid` (cqp), `C139_binary64` (cqp), `C139_differ` (cqp) |
| C140 | `C140_error` (cqp), `C140_binary64` (cqp), `C140_nearest` (cqp), `C140_passed_over` (cqp), `C140_own_label` (cqp), `C140_kmeans` (cqp), `C140_symmetry` (cqp), `C140_streaming` (cqp) |
| C141 | `C141_choice` (cqp), `C141_null` (cqp), `C141_ppIter` (cqp), `C141_binary64` (cqp), `C141_integers` (cqp), `C141_panics` (cqp), `C141_default` (cqp), `C141_pp_panics` (cqp) |
| C142 | `C142_see_kmeans` (qp), `C142_iterate` (cqp), `C142_run` (cqp), `C142_given` (cqp), `C142_rand` (qp), `C142_pp` (cqp), `C142_kmeans` (cqp), `C142_stream` (cqp), `C142_stream_write` (cqp), `C142_see_stream` (p), `C142_reused` (p), `C142_pp_shared` (cqp) |
| C143 | `C143_stored` (p), `C143_settled` (cqp), `C143_frozen` (cqp), `C143_ratio` (cqp), `C143_balance` (cqp), `C143_default` (cqp), `C143_kmeans` (cqp), `C143_settles` (cqp), `C143_restart` (cqp) |
| C144 | `C144_distance` (cqp), `C144_label` (p), `C144_kmeans` (cqp), `C144_choice` (p), `C144_ppIter` (qp), `C144_pp` (cqp), `C144_stream` (cqp), `C144_stream_run` (qp), `C144_mcmc` (cqp), `C144_mcmc_init` (cqp), `C144_cosine` (cqp), `C144_tiny` (cqp) |
| C145 | `C145_pdf` (cqp), `C145_sample` (cqp), `C145_init` (qp), `C145_same` (cqp), `C145_right` (cqp), `C145_larger` (cqp), `C145_smaller` (cqp), `C145_ends` (cqp), `C145_type` (p), `C145_params` (cqp) |
| C146 | `C146_accepted` (qp), `C146_two` (cqp), `C146_one` (cqp), `C146_null` (qp), `C146_never_grows` (cqp), `C146_panics` (cqp), `C146_prob` (cqp), `C146_negative` (cqp), `C146_nan` (cqp), `C146_not_positive` (p), `C146_iterate` (p) |
| C147 | `C147_path` (cqp), `C147_dist` (cqp), `C147_best` (cqp), `C147_exact` (cqp), `C147_binary64` (cqp), `C147_order` (cqp) |
| C148 | `C148_returns` (cqp), `C148_dba` (cqp), `C148_lost` (cqp), `C148_nan` (cqp), `C148_euclid` (cqp), `C148_not_symmetric` (p), `C148_leaves_window` (p), `C148_skipped` (p), `C148_not_skipped` (p) |
| C149 | `C149_same` (cqp), `C149_leaves` (cqp), `C149_steady` (cqp), `C149_safe` (cqp), `C149_panics_iff` (cqp), `C149_larger` (qp), `C149_opens` (cqp), `C149_sizes` (qp), `C149_stuck` (qp), `C149_short` (cqp), `C149_first` (qp), `C149_series` (cqp), `C149_series_panics` (cqp) |
| C150 | `C150_result` (cqp), `C150_two` (cqp), `C150_dies` (cqp), `C150_given` (cqp), `C150_pp_first` (cqp), `C150_pp` (cqp), `C150_pp_iterate` (cqp), `C150_pp_same` (cqp), `C150_pp_safe` (cqp), `C150_first_returns` (cqp), `C150_rand` (qp) |
| C151 | `C151_choice` (cqp), `C151_overflow` (cqp), `C151_zero` (cqp), `C151_ppIter` (cqp), `C151_ppIter_overflow` (cqp), `C151_pp` (cqp), `C151_pp_self` (cqp), `C151_euclid` (cqp), `C151_euclid_first` (cqp), `C151_probaK` (cqp), `C151_always_grows` (cqp), `C151_twice` (cqp), `C151_accepted` (cqp) |
| C152 | `C152_power` (cqp), `C152_loss` (cqp), `C152_frozen` (cqp), `C152_ppIter` (cqp), `C152_equal` (cqp), `C152_cosine` (cqp) |
| C153 | `C153_panics` (p), `C153_times` (cqp), `C153_live` (cqp), `C153_quiet` (cqp), `C153_one` (cqp), `C153_torn` (qp) |
| C154 | `C154_assert` (p), `C154_right` (p), `C154_predict` (qp), `C154_kmeans` (cqp), `C154_given` (cqp), `C154_rand` (cqp), `C154_rand_same` (qp), `C154_pp` (cqp), `C154_loss` (cqp), `C154_mcmc` (cqp), `C154_stream` (qp), `C154_stream_first` (qp), `C154_stream_init` (p) |
| C155 | `C155_stuck` (qp), `C155_returns` (cqp), `C155_or` (qp), `C155_and` (qp), `C155_failed` (qp), `C155_timed_out` (qp), `C155_skeleton` (cqp), `C155_skeleton_hang` (cqp), `C155_skeleton_runs` (cqp) |
| C156 | `C156_blame` (cqp), `C156_interrupts` (qp), `C156_ready` (qp), `C156_late` (qp), `C156_restart` (qp), `C156_wait` (qp) |
| C157 | `C157_returned` (cqp), `C157_faultless` (cqp), `C157_broken` (qp) |
<!-- /axioms -->
