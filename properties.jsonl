{"id": "C01", "title": "Par splits the work exactly once and evenly", "statement": "core.Par(process, size, degree) calls process exactly once for each rank 0..degree-1, with contiguous intervals [start,end) in rank order which start at 0, end at size, never overlap, leave no gap, and whose lengths differ by at most one.", "quantifier": "every size >= 0 and every degree >= 1", "why_tests_cant": "Tests try a few sizes and degrees; remainder handling can be wrong for one residue only.", "anchors": ["core/util.go:Par"]}
{"id": "C02", "title": "Parallel labelling equals sequential labelling under every schedule", "statement": "Clust.ParMapLabel returns exactly the same labels and distances as Clust.MapLabel, whatever the degree and whatever the interleaving of the workers' writes.", "quantifier": "every clustering, data list, space, degree >= 1 and every interleaving of the worker goroutines", "why_tests_cant": "A schedule-dependent overwrite shows up on some interleavings only.", "anchors": ["core/par_assign.go:parMapLabel", "core/clustering.go:MapLabel,ParMapLabel", "core/util.go:Par"]}
{"id": "C03", "title": "Predict/Assign return the nearest centroid", "statement": "Assign (and Predict) return a label in range, the centroid stored at that label, its distance to the element, no other centroid is strictly closer, and among equally near centroids the smallest label wins; with no centroid they return label -1 and no centroid.", "quantifier": "every list of centroids, every element, every space whose distances are totally ordered and non-negative", "why_tests_cant": "Ties and orderings of centroids cannot be enumerated.", "anchors": ["core/clustering.go:Assign,nearest", "core/ctrl.go:Predict"]}
{"id": "C04", "title": "Nearest with NaN or negative distances", "statement": "If a space returns a negative distance the returned label need not be the nearest one, and if the first distance is NaN the answer is label 0 whatever the other distances; NaN distances of later centroids are ignored.", "quantifier": "every list of centroids and every assignment of distances incl. NaN", "why_tests_cant": "Cosine distances are NaN on zero vectors and may be slightly negative by rounding; tests use clean values.", "anchors": ["core/clustering.go:nearest", "cosinus/cosinus.go:PointDist"]}
{"id": "C05", "title": "MapLabel labels each element like Assign", "statement": "MapLabel returns one label and one distance per element, in order, each identical to what Assign returns for that element.", "quantifier": "every clustering, data list and space", "why_tests_cant": "Quantifies over all inputs.", "anchors": ["core/clustering.go:MapLabel"]}
{"id": "C06", "title": "ReduceDBA partitions the data", "statement": "The cardinalities returned by ReduceDBA are the numbers of elements assigned to each centroid, they sum to the number of elements, a cluster with no element has no centroid, and a non-empty one has the running Combine of its elements in input order.", "quantifier": "every non-empty clustering, every data list, every space", "why_tests_cant": "Quantifies over all inputs and spaces.", "anchors": ["core/clustering.go:ReduceDBA"]}
{"id": "C07", "title": "ReduceDBA computes arithmetic means", "statement": "For the Euclidean space in exact arithmetic every non-empty cluster's centroid returned by ReduceDBA is the arithmetic mean of the elements assigned to it.", "quantifier": "every clustering and data list of any common dimension", "why_tests_cant": "The incremental formula must equal the mean for every cluster size.", "anchors": ["core/clustering.go:ReduceDBA", "euclid/vectors.go:PointCombine"]}
{"id": "C08", "title": "Parallel reduction equals sequential reduction", "statement": "ParReduceDBA returns the cardinalities of ReduceDBA for every degree; in exact arithmetic (Euclidean space, more generally when Combine is a weighted mean) it returns the same centroid for every non-empty cluster and the previous centroid for every empty cluster.", "quantifier": "every clustering, data list, degree >= 1", "why_tests_cant": "Depends on partition boundaries and empty partitions in every combination.", "anchors": ["core/par_dba.go:parReduceDBA,dbaAggregate,dbaCombine,buildResult"]}
{"id": "C09", "title": "DBA for given labels: parallel equals sequential", "statement": "ParReduceDBAForLabels agrees with ReduceDBAForLabels for all degrees (cards always, means in exact arithmetic), and ReduceDBAForLabels with the labels of MapLabel equals ReduceDBA.", "quantifier": "every clustering, data list, label list within range, degree >= 1", "why_tests_cant": "Quantifies over all inputs and degrees.", "anchors": ["core/par_dba.go:parDBAForLabels", "core/clustering.go:ReduceDBAForLabels"]}
{"id": "C10", "title": "Losses are consistent", "statement": "ReduceLoss, ParReduceLoss and ReduceLossForLabels (with MapLabel's labels) agree in exact arithmetic for every degree; TotalLoss equals the sum over elements of dist^norm to their nearest centroid; cards sum to the number of elements.", "quantifier": "every clustering, data list, space, norm, degree >= 1", "why_tests_cant": "Quantifies over all inputs and degrees.", "anchors": ["core/clustering.go:ReduceLoss,ReduceLossForLabels,TotalLoss,ParTotalLoss", "core/par_loss.go"]}
{"id": "C11", "title": "Assignment minimises the loss", "statement": "Among all labellings of the data, the one given by MapLabel has the smallest total loss.", "quantifier": "every clustering, data list, labelling, space with non-negative distances and non-negative norm exponent", "why_tests_cant": "Exponentially many labellings.", "anchors": ["core/clustering.go:ReduceLoss,ReduceLossForLabels,MapLabel"]}
{"id": "C12", "title": "DBA and WeightedDBA are weighted means", "statement": "DBA / WeightedDBA fail exactly on an empty list, and in exact Euclidean arithmetic return the (weighted) mean, independent of the order of the elements.", "quantifier": "every list of vectors of a common dimension, all positive weights", "why_tests_cant": "Order independence quantifies over all permutations.", "anchors": ["core/clustering.go:DBA,WeightedDBA"]}
{"id": "C13", "title": "Unbounded buffer keeps everything in order", "statement": "A data buffer built with size <= 0 contains the initial data followed by every stored element, in storing order.", "quantifier": "every initial data list and every sequence of pushes and applies", "why_tests_cant": "Unbounded histories.", "anchors": ["core/buffer.go:NewDataBuffer,Push,Apply,infiniteSizeStrategy"]}
{"id": "C14", "title": "Frame buffer holds exactly the most recently stored elements", "statement": "A data buffer built with size n > 0 always contains exactly the min(n, total) most recently stored elements (initial data counting as stored first), up to rotation; its length never exceeds n and never shrinks.", "quantifier": "every initial data list, every n > 0, every sequence of pushes and applies", "why_tests_cant": "Wrap-around of the ring depends on the history.", "anchors": ["core/buffer.go:NewDataBuffer,fixedSizeStrategy.push"]}
{"id": "C15", "title": "Staged pushes are neither lost, duplicated nor visible early", "statement": "Pushes made while the algorithm is alive leave Data() unchanged until Apply; Apply stores all of them, each once, in push order and leaves nothing staged.", "quantifier": "every history of pushes (alive or not) and applies", "why_tests_cant": "Unbounded histories.", "anchors": ["core/buffer.go:Push,Apply,applyNext"]}
{"id": "C16", "title": "A push blocks exactly when 2000 elements are staged", "statement": "DataBuffer.Push(e, true) blocks iff 2000 elements are already staged; Push(e,false) never blocks. Hence an algorithm that is Ready but not iterating accepts 2000 pushes and blocks the 2001st caller until data is applied.", "quantifier": "every history", "why_tests_cant": "The threshold is far outside unit tests and depends on the history.", "anchors": ["core/buffer.go:pipeSize,Push", "kmeans/impl.go:Push"]}
{"id": "C17", "title": "Recency across a restart", "statement": "Claim examined: after a stop, a direct push and a restart the frame buffer holds the most recently pushed elements. It is false: elements staged before the stop are stored after elements pushed later; it holds when nothing is staged at the time of a direct push.", "quantifier": "every history of alive/not-alive pushes and applies", "why_tests_cant": "Needs a specific history; tests never mix the two modes.", "anchors": ["core/buffer.go:Push,Apply", "kmeans/impl.go:Init,Push"]}
{"id": "C18", "title": "Buffer does not alias the caller's data but Data() is a live view", "statement": "NewDataBuffer copies: later changes of the caller's slice do not change the buffer, and pushing never changes the caller's slice. In frame mode a slice obtained from Data() is overwritten by later pushes; in unbounded mode the elements visible in such a slice never change.", "quantifier": "every initial slice, every history of stores and every retained Data() slice", "why_tests_cant": "Aliasing needs heap-level reasoning on all histories.", "anchors": ["core/buffer.go:NewDataBuffer,Data,fixedSizeStrategy.push,infiniteSizeStrategy.push"]}
{"id": "C19", "title": "Finishing combinators", "statement": "AndFinishing is finished iff it has at least one member and all members are; OrFinishing iff some member is; a nil member counts as not finished; StatusFinishing iff the status is listed or (if asked) an error is set; IterFinishing iff a limit is set and iterations >= Iter + pushed*IterPerData.", "quantifier": "every nesting of finishings and every model state", "why_tests_cant": "Arbitrary nesting.", "anchors": ["core/finish.go"]}
{"id": "C20", "title": "Wait terminates exactly on finish or time-out", "statement": "Wait polls until the condition holds or the deadline has passed: it returns the time-out error only if the deadline had passed at a poll where the condition did not hold, returns the status error otherwise, and never returns earlier; with a finite deadline it always returns.", "quantifier": "every timeline of model states and clock readings", "why_tests_cant": "All timelines.", "anchors": ["core/timeout.go:WaitTimeout,wait,isTimeout", "core/ctrl.go:Wait,CanNeverFinish"]}
{"id": "C21", "title": "Configuration check", "statement": "PrepareConf / NewAlgo accept a configuration iff the documented constraints hold (controller limits non-negative, K >= 1, 1 <= InitK <= MaxK, OutAfter >= 2), filling defaults is idempotent and never overrides a user-set value, and NewAlgo panics on every other configuration.", "quantifier": "every configuration value", "why_tests_cant": "All combinations of fields.", "anchors": ["core/conf.go", "kmeans/conf.go", "mcmc/conf.go", "streaming/conf.go", "core/algo.go:NewAlgo"]}
{"id": "C22", "title": "Degree of parallelism is not validated", "statement": "A negative NumCPU passes configuration checks although every parallel operation then panics; with NumCPU >= 1 none of the Par operations panics on the partition arithmetic.", "quantifier": "every degree and size", "why_tests_cant": "All degrees.", "anchors": ["kmeans/conf.go", "mcmc/conf.go", "core/util.go:Par"]}
{"id": "C23", "title": "K-means iteration preserves the number of clusters", "statement": "Every k-means iteration (sequential or parallel) returns as many centroids as it got, never a missing one, and leaves the centroid of a cluster without elements unchanged. It panics in one case only: there are data and no centroid at all.", "quantifier": "every clustering, data list, degree >= 1", "why_tests_cant": "All inputs.", "anchors": ["kmeans/seq.go", "kmeans/par.go", "core/par_dba.go:buildResult"]}
{"id": "C24", "title": "Sequential and parallel k-means agree", "statement": "In exact Euclidean arithmetic an iteration of the parallel k-means yields the same centroids as the sequential one for every degree, hence the same sequence of centroids for any number of iterations.", "quantifier": "every clustering, data, degree, number of iterations", "why_tests_cant": "All degrees and unbounded iteration counts.", "anchors": ["kmeans/seq.go:Iterate", "kmeans/par.go:Iterate"]}
{"id": "C25", "title": "K-means never increases the loss", "statement": "In exact Euclidean arithmetic with norm 2 the total loss after a k-means iteration is at most the loss before it, for any number of iterations.", "quantifier": "every clustering, data, number of iterations", "why_tests_cant": "An optimisation invariant over all inputs.", "anchors": ["kmeans/seq.go:Iterate", "core/clustering.go:TotalLoss,ReduceDBA"]}
{"id": "C26", "title": "Given initializer", "statement": "GivenInitializer succeeds iff 1 <= k <= number of elements, and then returns copies of the first k elements.", "quantifier": "every k and element list", "why_tests_cant": "All inputs.", "anchors": ["kmeans/init.go:GivenInitializer,check"]}
{"id": "C27", "title": "Random initializer draws k distinct positions", "statement": "RandInitializer fails iff k < 1 or k > number of elements (for k >= 0); when it returns, the centroids are copies of elements at k pairwise distinct positions, whatever the random source yields.", "quantifier": "every k, element list and stream of random draws", "why_tests_cant": "All random streams.", "anchors": ["kmeans/init.go:RandInitializer"]}
{"id": "C28", "title": "k-means++ never draws an existing centre", "statement": "PPInitializer/PPIter only return copies of data elements, each drawn element has a strictly positive distance to all centres drawn before, and it fails with the null-set error exactly when all elements coincide with existing centres.", "quantifier": "every data list, clustering and random draw in (0,1)", "why_tests_cant": "All data and random draws.", "anchors": ["kmeans/init.go:PPInitializer,PPIter,WeightedChoice"]}
{"id": "C29", "title": "WeightedChoice stays in range and skips null weights", "statement": "For non-negative weights of positive sum and a draw in (0,1) WeightedChoice returns an index in range whose weight is positive and whose cumulative interval contains the draw; with null sum it returns the null-set error. With a draw of exactly 0 it returns -1.", "quantifier": "every weight list and every draw in [0,1)", "why_tests_cant": "The 0 draw has probability 2^-53.", "anchors": ["kmeans/init.go:WeightedChoice"]}
{"id": "C30", "title": "MCMC number of clusters stays in range", "statement": "With an initializer that returns k centroids out of at least k data (Given, Rand and PP do): after Init and after every MCMC iteration the number of centroids is between 1 and min(MaxK, number of data), equals the current k, and changes by at most one per iteration; with three non-negative weights ProbaK and number distances no iteration panics (for draws of weights strictly between 0 and 1), whereas other numbers of weights are accepted by NewAlgo and may panic.", "quantifier": "every history of iterations, pushes, random draws, configurations accepted by NewAlgo", "why_tests_cant": "All histories and random draws.", "anchors": ["mcmc/impl.go:nextK,getKCenters,doIter,Init"]}
{"id": "C31", "title": "Centre store", "statement": "GetCenters(k) returns the last accepted centres of size k if any; otherwise it adds exactly one data element to, removes exactly one centre from, or returns the given clustering; the stored clustering for k always has k centres.", "quantifier": "every history of SetCenters/GetCenters, all random draws", "why_tests_cant": "All histories.", "anchors": ["mcmc/store.go"]}
{"id": "C32", "title": "MCMC acceptance", "statement": "The centroids change only when the proposal is accepted, the acceptations figure counts exactly the accepted proposals (never more than the iterations performed since the implementation was built, although possibly more than those since the last Init), and a proposal whose acceptance ratio is at least 1 is always accepted.", "quantifier": "every history and random draw", "why_tests_cant": "All histories.", "anchors": ["mcmc/impl.go:doIter,accept"]}
{"id": "C33", "title": "LateDistrib builds once", "statement": "Whatever the number of goroutines calling Sample/Pdf concurrently and however they interleave, the builder is called at most once, exactly once if any call completes, and every call uses the distribution it built.", "quantifier": "every number of goroutines and every interleaving (sequentially consistent memory)", "why_tests_cant": "All interleavings.", "anchors": ["mcmc/latedistrib.go"]}
{"id": "C34", "title": "Multivariate-t log-density", "statement": "MultivT.Pdf(mu,x,t) is symmetric in mu and x, invariant under translation, strictly decreasing in the Euclidean distance between them and maximal exactly at mu = x; it panics exactly when x is shorter than mu.", "quantifier": "every pair of vectors, every time > 0, every Nu > 0", "why_tests_cant": "All vectors.", "anchors": ["mcmc/multivt.go:Pdf"]}
{"id": "C35", "title": "Streaming processes each pushed element once, in order", "statement": "In the streaming algorithm the elements consumed by Init/Iterate are exactly, in order, the initial data followed by the successfully pushed elements; those not yet consumed are exactly the ones waiting; an iteration without waiting element changes nothing.", "quantifier": "every history of pushes, inits and iterations", "why_tests_cant": "All histories.", "anchors": ["streaming/impl.go:NewImpl,Push,Init,Iterate"]}
{"id": "C36", "title": "Streaming push fails iff the buffer is full", "statement": "streaming Push returns an error iff BufferSize elements are waiting; it never blocks, and a failed push changes nothing. NewAlgo panics iff more initial data than BufferSize is given.", "quantifier": "every history", "why_tests_cant": "All histories.", "anchors": ["streaming/impl.go:Push", "streaming/algo.go:NewAlgo"]}
{"id": "C37", "title": "Streaming cardinalities account for all elements", "statement": "There is one cardinality per cluster, each is at least 1, they sum to the number of consumed elements; clusters are never removed, so their number never decreases.", "quantifier": "every history", "why_tests_cant": "All histories.", "anchors": ["streaming/impl.go:AddCenter,AddOutlier,UpdateCenter,Process"]}
{"id": "C38", "title": "Streaming centres are means (mass conservation)", "statement": "In exact Euclidean arithmetic the cardinality-weighted sum of the streaming centres equals the sum of all consumed elements, and each centre is the mean of the elements merged into it.", "quantifier": "every history", "why_tests_cant": "All histories and draws.", "anchors": ["streaming/impl.go:UpdateCenter", "euclid/vectors.go:PointCombine"]}
{"id": "C39", "title": "Streaming maximal distance", "statement": "The maxDistance figure never decreases, is never negative for non-negative distances, and is unaffected by outliers once positive; a distance-0 element seen while it is 0 is merged and never opens a cluster (the 0/0 ratio is NaN).", "quantifier": "every history", "why_tests_cant": "All histories; NaN path.", "anchors": ["streaming/impl.go:UpdateMaxDistance,GetRelativeDistance,Process"]}
{"id": "C40", "title": "Euclidean distance is a metric", "statement": "For vectors of a common dimension the Euclidean distance is non-negative, zero iff equal, symmetric and satisfies the triangle inequality.", "quantifier": "every dimension, all vectors (exact arithmetic; symmetry and d(x,x)=0 also under rounding)", "why_tests_cant": "All vectors.", "anchors": ["euclid/vectors.go:PointDist"]}
{"id": "C41", "title": "Euclidean Combine is the weighted mean", "statement": "Combine of vectors of a common dimension with positive weights is the weighted mean: it lies coordinatewise between the operands, is symmetric when swapping both elements and weights, merging in any grouping gives the same result, and inputs are not modified.", "quantifier": "all vectors and positive weights", "why_tests_cant": "All inputs.", "anchors": ["euclid/vectors.go:PointCombine"]}
{"id": "C42", "title": "Vectors of different dimensions", "statement": "Dist/Combine panic iff the first vector is longer than the second; when the first is shorter the surplus coordinates are silently ignored, so Dist is not symmetric across dimensions.", "quantifier": "all pairs of vectors", "why_tests_cant": "All dimension pairs.", "anchors": ["euclid/vectors.go:PointDist,PointCombine"]}
{"id": "C43", "title": "Cosine distance", "statement": "For non-zero vectors of a common dimension the cosine distance lies in [0,2], is symmetric, invariant under positive scaling of either vector, and zero iff the vectors are positively collinear; for a zero vector it is NaN.", "quantifier": "all vectors", "why_tests_cant": "All vectors.", "anchors": ["cosinus/cosinus.go"]}
{"id": "C44", "title": "DTW distance is the cheapest warping path", "statement": "The DTW distance equals the minimum, over all warping paths within the window from the first pair to the last pair, of the accumulated point distances.", "quantifier": "all pairs of non-empty series, all windows under which an admissible path exists, every point space (also with rounded addition, as only monotonicity is used)", "why_tests_cant": "Exponentially many paths.", "anchors": ["dtw/cost.go:computeCumCost,Get", "dtw/dtw.go:Dist"]}
{"id": "C45", "title": "DTW path is an optimal warping path", "statement": "The reported path is a warping path from the last pair to the first pair within the window and its accumulated cost equals the reported distance.", "quantifier": "all pairs of non-empty series and admissible windows", "why_tests_cant": "All inputs.", "anchors": ["dtw/cost.go:computePath,decrPath"]}
{"id": "C46", "title": "Banded cost matrix storage is faithful", "statement": "Reading the accumulated cost at (i,j) returns the value written for (i,j), infinity outside the window, and no access is out of range, for all lengths and windows such that l1 <= l2 + window.", "quantifier": "all lengths and windows", "why_tests_cant": "The compressed index arithmetic has many regimes.", "anchors": ["dtw/cost.go:ravel,index,inWindow,setStride,Get"]}
{"id": "C47", "title": "DTW space never panics (claim examined)", "statement": "dtw.Space.Dist and Combine never panic on non-empty series of points of a common dimension. True with a positive window; false without window: a first series longer than twice the second panics.", "quantifier": "all pairs of non-empty series, all windows >= 0", "why_tests_cant": "Needs a length ratio above 2.", "anchors": ["dtw/cost.go:setStride,computeCumCost", "dtw/series.go:Dist", "dtw/interpolate.go:ShrinkLongest"]}
{"id": "C48", "title": "DTW distance is symmetric (claim examined)", "statement": "Dist(a,b) = Dist(b,a) for a symmetric point distance. True with a positive window or when lengths are close; false in general without window, because the second series' length silently becomes the window.", "quantifier": "all pairs of non-empty series, all windows", "why_tests_cant": "Needs lengths l1 >= l2+2 and specific values.", "anchors": ["dtw/cost.go:setStride", "dtw/series.go:Dist"]}
{"id": "C49", "title": "DTW distance: identity and non-negativity", "statement": "The DTW distance of a series to itself is 0, distances are non-negative and a larger window never gives a larger distance.", "quantifier": "all series and windows", "why_tests_cant": "All inputs.", "anchors": ["dtw/dtw.go", "dtw/series.go"]}
{"id": "C50", "title": "Resize", "statement": "For every series of at least two points and every n >= 1, Resize(s, n) returns exactly n points, the first one being that of s, the last one being that of s when n >= 2, and every point being a point of s or the combination of its two neighbouring points of s weighted by the gaps. For n = 1 only the first point is kept; n = 0 or a series of one point panics.", "quantifier": "all series and sizes", "why_tests_cant": "Integer index arithmetic over all sizes.", "anchors": ["dtw/interpolate.go:Resize,Interpolate"]}
{"id": "C51", "title": "Interpolate never runs out of range", "statement": "For an index list starting at 0, as long as the series and whose last index is not negative, and a positive shrink factor, Interpolate never panics, its result has lastIndex/shrink + 1 points and each is an original point or the linear interpolation of its two neighbours with positive weights.", "quantifier": "all series, index lists and shrink factors", "why_tests_cant": "All inputs.", "anchors": ["dtw/interpolate.go:Interpolate"]}
{"id": "C52", "title": "DTW average length", "statement": "Combine(s1,w1,s2,w2) of two series has ((l1-1)w1+(l2-1)w2)/(w1+w2)+1 points, hence between min and max of both lengths, and starts with the combination of the first points; a set of points closed under combination and containing the points of both series contains the points of the average. With a window the lengths are those after ShrinkLongest.", "quantifier": "all non-empty series, all non-negative weights not both null, all windows under which Combine does not panic", "why_tests_cant": "All inputs.", "anchors": ["dtw/dtw.go:DBA"]}
{"id": "C53", "title": "Status and error are coherent", "statement": "In every reachable state of an algorithm object: an error is set only if the status is Finished; the status never returns to Created; Initializing is never observable through Status(); the only successors of Created is Initializing and of Initializing are Ready and Finished-with-error.", "quantifier": "every number of client goroutines, every sequence of calls, every interleaving", "why_tests_cant": "All interleavings.", "anchors": ["core/ctrl.go", "core/algo.go:setStatus", "core/model.go:Status"]}
{"id": "C54", "title": "Refused commands have no effect", "statement": "Init outside Created/Finished returns the already-created error, Play while Running the running error, Pause while not Running the not-running error, Stop outside Ready/Running/Idle the not-alive error; each refused call changes nothing.", "quantifier": "every reachable state, every interleaving", "why_tests_cant": "All interleavings.", "anchors": ["core/ctrl.go:Init,Play,Pause,Stop"]}
{"id": "C55", "title": "Counters are exact", "statement": "At every moment the iterations and pushedData figures equal the number of completed iterations and successful pushes since the last (re-)initialisation.", "quantifier": "every number of clients, every interleaving", "why_tests_cant": "All interleavings.", "anchors": ["core/ctrl.go:Push,run,init,updateRuntimeFigures,saveIterContext"]}
{"id": "C56", "title": "Iteration limit is respected", "statement": "With Iter or IterPerData set, as long as at most one goroutine at a time is between the test of the limit and the record of an iteration, or about to reset the counters, the number of iterations never exceeds Iter + pushed*IterPerData; with at most m such goroutines it exceeds it by at most m-1. Without that condition (two overlapping Play calls) the limit can be exceeded (claim examined).", "quantifier": "every interleaving, every m", "why_tests_cant": "All interleavings.", "anchors": ["core/ctrl.go:run", "core/finish.go:IterFinishing"]}
{"id": "C57", "title": "Iterations only follow a successful initialisation, failures are contained", "statement": "Iterate is only ever called after a successful Init; an error returned by, or a panic raised in, Iterate is recovered: nothing is saved, the run never iterates again, and the only thing it does next is to set the status to Finished with that error. The error does not always remain: a Stop in progress when the iteration fails overwrites it (claim examined).", "quantifier": "every interleaving, every failing iteration", "why_tests_cant": "All crash points.", "anchors": ["core/ctrl.go:run,recover"]}
{"id": "C58", "title": "Sequential use follows the documented workflow", "statement": "With one client that calls Init, Play, Pause, Stop, Push, Wait (without condition or time-out), Status, Centroids, RuntimeFigures and Conf one after the other, on a configuration without iteration limit, time-out, finishing condition or automatic start, an implementation whose Init and Iterate never fail, and no Stop while the documented status is Idle: every completed call has returned the documented result, between two calls the status is the documented one (Created/Ready/Running/Idle/Finished, without error), and a call in progress can always still return.", "quantifier": "every call sequence of one client, every interleaving with the background goroutines", "why_tests_cant": "All call sequences and schedules.", "anchors": ["core/ctrl.go", "README.md"]}
{"id": "C59", "title": "A failed Play releases the algorithm (claim examined)", "statement": "After Play returned an initialisation error the algorithm object remains usable. False: the status lock is never released and every later call blocks forever.", "quantifier": "every continuation after a failed initialisation through Play", "why_tests_cant": "Absence of progress over all continuations.", "anchors": ["core/ctrl.go:Play"]}
{"id": "C60", "title": "Pause racing with the end of a run (claim examined)", "statement": "Pause either succeeds or has no effect. False: Pause overlapping the natural end of a run can return the not-running error yet leave the status Idle with nobody to resume, after which Play and Stop block forever.", "quantifier": "every interleaving", "why_tests_cant": "A specific race.", "anchors": ["core/ctrl.go:Pause,recover"]}
{"id": "C61", "title": "Push racing with the end of a run (claim examined)", "statement": "Push always returns. False: Push and the end of a run take the two locks in opposite orders and can block each other forever.", "quantifier": "every interleaving", "why_tests_cant": "A specific race.", "anchors": ["core/ctrl.go:Push,recover"]}
{"id": "C62", "title": "Concurrent Play starts one run (claim examined)", "statement": "Concurrent Play calls start a single run. False: two overlapping Play calls on a Ready algorithm start two runs iterating concurrently.", "quantifier": "every interleaving", "why_tests_cant": "A specific race.", "anchors": ["core/ctrl.go:Play,run"]}
{"id": "C63", "title": "Status notifier may query the algorithm (claim examined)", "statement": "The status notifier, which receives the algorithm, may call Status(). False: a notifier calling Status() during initialisation blocks the initialisation forever.", "quantifier": "every interleaving", "why_tests_cant": "A specific callback and schedule.", "anchors": ["core/algo.go:setStatus,notify,notificationLoop", "core/ctrl.go:init"]}
{"id": "C64", "title": "Each status change is notified exactly once", "statement": "Every status change is delivered to the notifier exactly once; at every moment the undelivered ones are exactly those whose setter is still waiting to hand over.", "quantifier": "every interleaving", "why_tests_cant": "All interleavings.", "anchors": ["core/algo.go:setStatus,notificationLoop"]}
{"id": "C65", "title": "Acknowledgement channel is closed at most once and no lock is released twice", "statement": "No execution closes an acknowledgement channel twice nor unlocks an unheld lock; so these runtime faults never kill the process.", "quantifier": "every interleaving", "why_tests_cant": "All interleavings.", "anchors": ["core/ctrl.go:recover", "core/algo.go:receiveStatus,sendStatus"]}
{"id": "C66", "title": "Automatic play on push", "statement": "A Push on a Ready algorithm starts a run iff DataPerIter > 0 and at least DataPerIter pushes were counted since the last automatic start, so starts happen every DataPerIter+1 pushes when pushes do not overlap; overlapping pushes can lose an automatic start (claim examined).", "quantifier": "every push history", "why_tests_cant": "All histories.", "anchors": ["core/ctrl.go:Push"]}
{"id": "C67", "title": "Copy is independent of the original", "statement": "The k-means/MCMC buffer of a copy has the same stored data and is not affected by, nor affects, the original; staged data are not copied, and a full frame buffer's copy may evict a different element than the original would (claim examined).", "quantifier": "every history before and after the copy", "why_tests_cant": "All histories.", "anchors": ["core/ctrl.go:Copy", "kmeans/impl.go:Copy", "mcmc/impl.go:Copy", "streaming/impl.go:Copy"]}
{"id": "C68", "title": "Disabled time-out never interrupts", "statement": "An interruption time-out fires at most once, and not at all after it was disabled; with one client each Play disables the time-out of the previous one, so that only the last one started interrupts. A time-out concerns only the run it was started for: false, since only the next Play disables it: it can finish an algorithm which was stopped and initialised again, or interrupt a later run (claim examined).", "quantifier": "every interleaving, every moment at which the time-out wakes up", "why_tests_cant": "All interleavings.", "anchors": ["core/timeout.go:InterruptionTimeout,interrupt,Disable"]}
{"id": "C69", "title": "Re-initialising the streaming algorithm keeps the old clusters (claim examined)", "statement": "streaming Init starts a new clustering made of the oldest waiting element only. False when clusters already exist: the clustering returned has that single element but the implementation keeps all former clusters and cardinalities, and the next consuming iteration returns them all.", "quantifier": "every state with at least one cluster and one waiting element", "why_tests_cant": "Needs a second initialisation after a run.", "anchors": ["streaming/impl.go:Init,AddCenter,Iterate"]}
{"id": "C70", "title": "Streaming merges into the nearest centre only", "statement": "Processing an element either appends it as a new cluster of cardinality 1 or merges it, with weight 1 against the cluster's cardinality, into the first nearest centre; every other centre and cardinality is unchanged. A cluster is opened exactly when at least OutAfter elements were processed before and the relative distance exceeds OutRatio, or when the draw is below the relative distance.", "quantifier": "every state with at least one cluster, every element with number distances, every draw", "why_tests_cant": "All states and draws.", "anchors": ["streaming/impl.go:Process,AddCenter,AddOutlier,UpdateCenter"]}
{"id": "C71", "title": "Copying a streaming implementation (claim examined)", "statement": "streaming Impl.Copy yields an implementation in the same state. False: only the centres are kept, as waiting elements; cardinalities, maximal distance, count and waiting elements are lost, and the copy panics exactly when there are more clusters than BufferSize.", "quantifier": "every state", "why_tests_cant": "Needs more clusters than the buffer size.", "anchors": ["streaming/impl.go:Copy", "streaming/algo.go:NewAlgo"]}
{"id": "C72", "title": "MCMC compares losses on the same data (claim examined)", "statement": "When a proposal is judged, the loss kept for the current centroids is their loss on the data of the judgement. False once data have been pushed since the current centroids were accepted: the kept loss is that on the older data. True as long as nothing was pushed since the initialisation.", "quantifier": "every history of iterations and pushes, all random draws", "why_tests_cant": "Needs pushes between iterations; the effect is statistical only.", "anchors": ["mcmc/impl.go:doIter,accept,propose,Iterate"]}
{"id": "C73", "title": "MultivT.Pdf is the density of MultivT.Sample (claim examined)", "statement": "Sample(mu,t) returns mu plus a draw independent of t multiplied by 1/sqrt(20t); Pdf should then satisfy the change of variable Pdf(mu,mu+y*s(t),t)+Dim*log s(t) independent of t with s(t)=1/sqrt(20t). False in every dimension: it satisfies it with s(t)=(20t)^(-1/4), so the acceptance ratio uses a density which is not that of the sampler.", "quantifier": "every dimension, Nu, centre, offset and pair of times", "why_tests_cant": "A statistical discrepancy which no assertion on single values reveals.", "anchors": ["mcmc/multivt.go:Pdf,Sample"]}
{"id": "C74", "title": "Concurrent Pause keeps the run resumable (claim examined)", "statement": "After overlapping Pause calls succeeded the run can be resumed. False: two overlapping Pause calls can both return nil while the run ends, leaving the status Idle without a run, after which Play and Stop block forever.", "quantifier": "every interleaving", "why_tests_cant": "A specific race.", "anchors": ["core/ctrl.go:Pause,run", "core/algo.go:receiveStatus,sendStatus"]}
{"id": "C75", "title": "Concurrent resume returns (claim examined)", "statement": "Overlapping Play calls on an Idle algorithm all return while the run goes on. False: one of the two commands can be consumed without acknowledgement, and its caller stays blocked however many iterations the run makes.", "quantifier": "every interleaving, any number of further iterations", "why_tests_cant": "A specific race.", "anchors": ["core/ctrl.go:Play,run", "core/algo.go:receiveStatus,sendStatus"]}
{"id": "C76", "title": "Stop is final until the next Play (claim examined)", "statement": "After Stop returned nil no run is active until Play is called again. False: a Stop overlapping a Play on a Ready algorithm can return nil, after which that earlier Play starts its run.", "quantifier": "every interleaving", "why_tests_cant": "A specific race.", "anchors": ["core/ctrl.go:Play,interrupt"]}
{"id": "C77", "title": "Push overlapping Stop returns (claim examined)", "statement": "Push returns even if the algorithm is stopped meanwhile. False: when an automatic Play finds the algorithm Finished it re-initialises it and waits for the model lock which its own Push holds, forever.", "quantifier": "every interleaving, every continuation", "why_tests_cant": "A specific race.", "anchors": ["core/ctrl.go:Push,Play,init"]}
{"id": "C78", "title": "Overlapping Push calls return (claim examined)", "statement": "Push calls may overlap. False: an automatic Play reads the configuration under a second read lock; when another Push or the end of an iteration waits to write in between, both block forever, and Centroids, RuntimeFigures and Conf with them.", "quantifier": "every interleaving, every continuation", "why_tests_cant": "A specific race.", "anchors": ["core/ctrl.go:Push,Play,saveIterContext", "core/model.go:Conf"]}
{"id": "C79", "title": "A successful Play is not killed by the previous run (claim examined)", "statement": "When Play returned nil and Iterate neither fails nor is stopped the status is not Finished with an error. False: a Play overlapping the end of the previous run can return nil while its run dies of a send on the acknowledgement channel closed by the previous run.", "quantifier": "every interleaving", "why_tests_cant": "A specific race.", "anchors": ["core/ctrl.go:Play,run,recover", "core/algo.go:receiveStatus"]}
{"id": "C80", "title": "Sequential Stop on Idle then Play (claim examined)", "statement": "A single client which waits for the end of each call gets at most one run, and a run when Play returned nil. False: Init, Play, Pause, Stop, Play, all returning nil, can leave two runs iterating, or the status Running with no run iterating (after which Pause fails and the run dies of a send on a closed channel).", "quantifier": "every interleaving with the background goroutines", "why_tests_cant": "Stop on Idle returns before the run has looked at the status: a specific schedule.", "anchors": ["core/ctrl.go:interrupt,Play,run,recover", "core/algo.go:receiveStatus"]}
{"id": "C81", "title": "Push by a single client returns (claim examined)", "statement": "A single client which only calls Init and Push is never blocked. False: when a Push plays automatically and the run completes an iteration before Play has read the configuration, the Push and the run wait for each other forever.", "quantifier": "every interleaving with the background goroutines, every continuation", "why_tests_cant": "A specific schedule.", "anchors": ["core/ctrl.go:Push,Play,run", "core/model.go:Conf"]}
{"id": "C82", "title": "Batch plays exactly until the limit", "statement": "When one client uses the algorithm alone, with Iter or IterPerData set, and makes the calls of Batch (Stop, Play, Wait(nil,0), Stop), possibly after Init, Push, reads and former Batches, each run being started when the goroutine of the former one is over: Play, Wait and the last Stop return nil, the status is then Finished without error, exactly Iter + PushedData*IterPerData iterations have been recorded, and no call (Wait included) is ever stuck. PushedData counts from the last initialisation: after Init and Push, Batch initialises again and with IterPerData alone does no iteration (witness).", "quantifier": "every sequence of such calls, every interleaving of client, run and notification loop, every limit", "why_tests_cant": "The end of the run races with Wait and with the second Stop; tests see a few schedules.", "anchors": ["core/ctrl.go:Batch,Play,Wait,interrupt,run,recover,init", "core/finish.go:IsFinished", "core/timeout.go:wait"]}
{"id": "C83", "title": "The MCMC acceptance is Metropolis-Hastings for the Gibbs target", "statement": "In exact arithmetic the published rho is the Metropolis-Hastings ratio, for the target exp(-lambda(t)*loss) * (2B)^(-dim*k) with lambda(t) = Amp*sqrt((dim+3)/t), of a proposal drawn with the log-density kept with it; accepting with probability min(1,rho) is in detailed balance with this target.", "quantifier": "all states, all draws, all proposals, all parameters", "why_tests_cant": "The sign of each term of the exponent is not visible in a test on a few clusterings.", "anchors": ["mcmc/impl.go:accept,doIter"]}
{"id": "C84", "title": "The density kept with a proposal is that of the centroids drawn (claim examined)", "statement": "The density kept with a proposal is the density, under Distrib, of the altered centroids about the centroids they were drawn from. False with MultivT: it is evaluated at the centroids about themselves, so it is k times a constant depending on time only; after any history, whenever the draw moves a centroid, it differs from the density of the draw.", "quantifier": "all histories, all draws, all states, all degrees of freedom", "why_tests_cant": "The chain still converges to something plausible.", "anchors": ["mcmc/impl.go:propose,proba,Init", "mcmc/multivt.go:Pdf", "mcmc/dirac.go:Pdf"]}
{"id": "C85", "title": "One client uses the implementation sequentially", "statement": "When one goroutine uses the controller, the calls of Init and Iterate of the implementation never overlap, and each Iterate is given the centroids returned by the last Init or Iterate that returned some: no result of an iteration is lost or used twice. When nobody is in such a call, Centroids() and the iterations figure are those of the last returned. With two clients this is false: two overlapping Play calls start two runs which iterate at the same time.", "quantifier": "all executions with one client, all schedules, all results of the implementation, with and without a limit on the iterations", "why_tests_cant": "A test sees a few schedules; a lost or repeated iteration gives plausible centroids.", "anchors": ["core/ctrl.go:Init,init,Play,run,saveIterContext", "core/model.go:Centroids"]}
{"id": "C86", "title": "After Batch the centroids are the composition of the iterations", "statement": "When one goroutine plays until the limit (as Batch does, once or repeatedly, starting each run when the goroutine of the former one is over) and the implementation computes its n-th iteration by a function f n of the centroids it is given, every later result of Centroids() is f (N-1) (... (f 0 c)) where c are the centroids returned by the last Init and N = Iter + PushedData * IterPerData.", "quantifier": "all executions with one client, all schedules, all limits, all implementations", "why_tests_cant": "The number of iterations and their order depend on the schedule of the run; a test cannot exclude an off-by-one under another schedule.", "anchors": ["core/ctrl.go:Batch,Play,run,saveIterContext,Wait", "core/model.go:Centroids"]}
{"id": "C87", "title": "Batch on k-means clusters all the data pushed", "statement": "For a k-means algorithm used by one goroutine which pushes data and then plays until the limit (as Batch does, on an algorithm which is Created or Finished), every later result of Centroids() is Iter + PushedData * IterPerData iterations of k-means, each on all the elements given to NewAlgo or pushed (or the window of them which the buffer keeps), from the initial centroids computed on the same elements; hence it has k centroids and, in exact Euclidean arithmetic, a loss not greater than that of the initial centroids.", "quantifier": "all executions with one client, all schedules, all data, spaces, initializers, strategies, buffer sizes, limits", "why_tests_cant": "It relates what a client pushes to what it reads through the controller, the buffer and the iterations running in other goroutines; a test sees one schedule and one data set.", "anchors": ["core/ctrl.go:Push,Batch,Play,run", "core/buffer.go:Push,Apply,Data", "kmeans/impl.go:Init,Iterate,Push", "core/model.go:Centroids"]}
{"id": "C88", "title": "Data pushed between Init and Play", "statement": "For a k-means algorithm used by one goroutine, the data pushed between Init and Play are staged, because a Ready algorithm is alive: the first iteration works only on the data present at Init, the next ones on all of them; and at most 2000 elements can be pushed before Play, after which Push does not return.", "quantifier": "all executions with one client, all schedules, all data, spaces, initializers, strategies, buffer sizes, limits", "why_tests_cant": "The loss of the data for one iteration is silent, and the blocking needs more than 2000 pushes in this status.", "anchors": ["core/status.go:Alive", "core/buffer.go:Push,Apply", "kmeans/impl.go:Push,Iterate", "core/ctrl.go:Push"]}
{"id": "C89", "title": "k-means converges", "statement": "In exact Euclidean arithmetic, on data which do not change: an iteration which changes a centroid strictly decreases the loss; the clusterings which an iteration leaves unchanged are exactly those where each centroid with elements is their mean; such a clustering is reached after at most k^n iterations (k centroids, n elements) and kept, for the sequential and the parallel strategy. Hence for one goroutine which pushes data and calls Batch with Iter at least k^n, the centroids observed are stationary for all the data pushed. With a rounding mean an iteration may increase the distances.", "quantifier": "all data, dimensions, numbers of centroids, initial centroids (equal centroids and ties included), strategies and degrees, all executions with one client", "why_tests_cant": "Termination and strict decrease are statements on all runs; a cycle between clusterings would need a special data set.", "anchors": ["kmeans/seq.go:Iterate,buildResult", "kmeans/par.go:Iterate", "core/clustering.go:ReduceDBA", "core/par_dba.go:parReduceDBA", "core/ctrl.go:Batch"]}
{"id": "C90", "title": "Runtime figures can be read while the algorithm works (claim examined)", "statement": "RuntimeFigures() returns the controller's own map. Claim examined: it can be read while the algorithm works. It is false: one client which pushes while the run checks its limit on the iterations, or which reads the figures it was given while a run ends, can end the whole process by Go's fatal error 'concurrent map read and map write'. It holds as long as nobody pushes and no run ends: the iterations build a new map and publish it. The writes themselves never collide; every crash is a read, without the lock, of the map still in use; a map which an iteration has replaced never changes again; and when the process survives, the two figures read by the check of the limit are those of one moment. Whenever nobody is changing them, the figures are those of the operations done, applied one after the other: Iterations is the number of iterations saved and PushedData the number of pushes since the last reset.", "quantifier": "all interleavings of any number of goroutines which push, iterate, check the limit, end a run, reinitialise and read figures", "why_tests_cant": "The fatal error needs a read inside a window of a few instructions; it cannot be recovered, and the race detector only reports the schedules it sees.", "anchors": ["core/finish.go:62-71", "core/ctrl.go:25-35,218-223,288-294,313-327", "core/model.go:28-32"]}
{"id": "C91", "title": "Batch can be called again (claim examined)", "statement": "Claim examined: a client which has called Batch can call it again. It is false: with one goroutine and a limit of one iteration, the first Batch succeeds, and the Wait of the second one can poll for ever, with the status Running and no iteration; nothing but a call from another goroutine can change it. The deferred recover of the first run, which is still going on when the first Batch returns, consumes the command Running meant for the second run and acknowledges it.", "quantifier": "one concrete execution of one client; all its continuations without another client", "why_tests_cant": "The first run has to be descheduled between setting Ready and the end of its deferred recover until the second Play sends; a test sees the usual schedule where it is over long before.", "anchors": ["core/ctrl.go:Batch,Play,run,recover", "core/algo.go:sendStatus,receiveStatus"]}
{"id": "C92", "title": "Data races of the controller", "statement": "Two goroutines are in a data race when both are about to access the same field of the algorithm, one of them to write it, and no mutex keeps them apart. However many goroutines use the algorithm, the counters and notifChannel are never in a race; every race involves one of the accesses made without the mutex of the field (the status in the loop of the run and in interrupt, the centroids and the figures handed to Iterate, the content of the figures in the check of the limit, ackChannel and the time-out); two writes race only on ackChannel and on the time-out. A client alone which follows the workflow without limit on the iterations, and one which plays until the limit and waits for the end of each run, meet no race at all. Claim examined: one client without time-outs never meets a race. It is false for ackChannel, the status, the content of the figures, the figures and the centroids.", "quantifier": "all executions with any number of goroutines; for the race freedom, all executions of one client under the stated conditions; concrete executions for the refutation", "why_tests_cant": "The race detector only reports the schedules it sees, and the windows are a few instructions long.", "anchors": ["core/ctrl.go:Push,Init,init,Play,interrupt,recover,run,updateRuntimeFigures,saveIterContext", "core/algo.go:setStatus,receiveStatus,sendStatus,notificationLoop", "core/model.go", "core/finish.go:62-71"]}
{"id": "C93", "title": "The centroids shown come from the implementation", "statement": "Whatever any number of clients do, the centroids returned by Centroids() (hence used by Predict) or given to Iterate were returned before by Init or Iterate of the implementation; what Init establishes and Iterate maintains holds of every result of Centroids(), for instance the number k of centroids of k-means. If Init never returns nil, Centroids() is nil only until the end of the first initialisation and no Iterate is given nil.", "quantifier": "all executions with any number of clients, all schedules, all implementations and properties they maintain", "why_tests_cant": "The store of a result races with the other goroutines; a test sees a few interleavings and one implementation.", "anchors": ["core/ctrl.go:init,run,saveIterContext", "core/model.go:Centroids", "kmeans/impl.go:Init,Iterate"]}
{"id": "C94", "title": "Iteration frequency", "statement": "With IterFreq > 0 the period P is 10^9/IterFreq nanoseconds rounded down, and in a run the (n+1)-th iteration starts at least n periods after its beginning; in any window of width w at most w/P + 2 iterations start, so at most n + 2 in a second for a frequency n which divides 10^9. If the iterations are shorter than the period and nothing else takes time, one starts at each period, and a late iteration is not delayed. IterFreq is not a maximal number of iterations per second: three iterations can start in one second with a frequency of one. Without a positive IterFreq, above 10^9, or so low that the period overflows int64 to a negative number, there is no limit.", "quantifier": "all runs, all durations of the iterations, pauses and overheads, all frequencies, all windows", "why_tests_cant": "The existing test observes one run for a second; bursts appear only after a pause or a slow iteration, and limits at extreme frequencies.", "anchors": ["core/ctrl.go:run", "core/conf.go:CtrlConf.IterFreq"]}
{"id": "C95", "title": "The duration figure", "statement": "When a run is over, the duration figure is that of the former runs since the last initialisation of a Finished algorithm, plus the time from the start to the end of the run, which contains the iterations, the pauses and the 100 ms of the end; during a run it is taken at the end of the last iteration. It never decreases except at such an initialisation, is at most the time which has passed, and with a period P a run in which n iterations have returned lasts n periods or more. It is not the time spent iterating.", "quantifier": "all sequences of runs and resets, all durations of the iterations, pauses and overheads", "why_tests_cant": "Durations are not reproducible in a test; the sum over several runs and the reset are not tested.", "anchors": ["core/ctrl.go:run,recover,saveIterContext,init", "core/figures.go:Duration"]}
{"id": "C96", "title": "A panic of the implementation during Init is contained (claim examined)", "statement": "A panic of the implementation during the initialisation (a nil initializer, k-means++ with a draw of 0, a negative number of clusters) reaches the caller of Init or Play, unlike a panic during an iteration, which the run recovers. If the caller recovers it: after a Play, the status lock stays locked and every later call of Status, Init, Play, Pause, Stop or Wait blocks for ever; after an Init, if it was the first initialisation, the algorithm is Initializing for ever, no initialisation, run or iteration takes place, a further Init answers ErrAlreadyCreated, and the next Play returns nil without starting anything and keeps the status lock, so that everything blocks.", "quantifier": "all executions with any number of clients, all continuations after the panic", "why_tests_cant": "Needs a panic in the implementation, then calls which hang.", "anchors": ["core/ctrl.go:init,Init,Play", "kmeans/impl.go:Init"]}
{"id": "C97", "title": "A failed initialisation leaves no centroids (claim examined)", "statement": "When the number of clusters is lower than 1 or greater than the number of data, GivenInitializer returns nil centroids, but RandInitializer and PPInitializer return k centroids which are all nil with the error; when k-means++ finds no further centre, it returns with the error the elements drawn, a copy of the first datum, and nil for the rest. Without error there are k centroids, none nil. The controller stores the centroids returned with the error: after a failed Init, Centroids() returns them, and Predict panics for every element as soon as one of them is nil. An initializer created with an unknown name panics when it is used.", "quantifier": "all numbers of clusters, all data, all draws, all elements; all executions of the controller with any number of clients", "why_tests_cant": "The tests check the error only.", "anchors": ["kmeans/init.go:CreateInitializer,GivenInitializer,PPInitializer,RandInitializer", "core/ctrl.go:init,Predict", "core/clustering.go:Assign,nearest"]}
{"id": "C98", "title": "The Euclidean distance with rounding (identity of indiscernibles examined)", "statement": "With floating-point rounding (binary64 nearest-even, no overflow, no fused operation; or any monotone odd rounding with a relative error u and an absolute error e below the normal range) the Euclidean distance is symmetric, non-negative and exactly 0 between a point and itself, and its square differs from the exact squared distance in dimension n by a factor between (1-u)^(n+5) and (1+u)^(n+5) and n times e. The DTW distance of a series to itself is 0 and DTW distances are non-negative. The claim that distinct points are at a positive distance is false: the square underflows.", "quantifier": "all points of all dimensions, all roundings of the class, all series and windows", "why_tests_cant": "Tests compare a few distances up to a tolerance chosen by hand.", "anchors": ["euclid/vectors.go:Dist", "dtw/dtw.go"]}
{"id": "C99", "title": "The nearest centroid with rounding", "statement": "With floating-point rounding Assign returns a centroid whose squared exact distance to the element is at most (1+(n+5)/2^51) times that of any other centroid, plus n/2^1072; when one centroid is nearer than the others by more than the rounding, Assign returns it.", "quantifier": "all points and centroids of all dimensions (below 2^51 for the closed form), all roundings of the class", "why_tests_cant": "The difference appears only for nearly equidistant centroids.", "anchors": ["core/clustering.go:Assign,nearest", "euclid/vectors.go:Dist"]}
{"id": "C100", "title": "Means with rounding (independence of the strategy examined)", "statement": "With floating-point rounding Combine is the weighted mean up to an explicit error, and after an iteration of k-means, sequential or parallel of any degree, each coordinate of a centroid is the mean of the k elements assigned to it up to about k(B/2^50 + 1/2^1072), where B bounds the coordinates; hence two strategies differ by at most twice this. The claim that they agree is false: on 2^55, 1, -2^55, 1 the sequential centroid is 1/4, the parallel one 0, and the mean 1/2.", "quantifier": "all data of all dimensions, all centroids, all degrees of parallelism, up to 2^53 data (2^50 for the closed form)", "why_tests_cant": "Tests use a tolerance and benign data; the witness needs cancellation.", "anchors": ["euclid/vectors.go:Combine", "kmeans/seq.go", "kmeans/par.go", "core/clustering.go:DBA", "core/par_dba.go"]}
{"id": "C101", "title": "The loss of k-means with rounding (monotonicity examined)", "statement": "With floating-point rounding, an iteration of k-means, sequential or parallel, increases the exact loss by at most an explicit factor and an explicit term of the order of the rounding. The claim that it never increases is false: from the exact mean of the data an iteration can move away.", "quantifier": "all data of all dimensions, all centroids, all degrees of parallelism", "why_tests_cant": "A test would have to compute the loss exactly, on ill-conditioned data.", "anchors": ["kmeans/seq.go:Iterate", "kmeans/par.go:Iterate", "euclid/vectors.go"]}
{"id": "C102", "title": "Distribution of the draws of k-means++ (squared distances examined)", "statement": "For uniform independent draws on [0,1) and exact arithmetic: WeightedChoice returns the index i with probability w_i / sum of the weights (an index in range with probability 1 when some weight is positive); PPIter draws each element with a probability proportional to its distance to the nearest centre; the probability that PPInitializer returns given centroids is the product of these probabilities along the draws. The claim that the probabilities are proportional to the squared distances, as in the published k-means++, is false.", "quantifier": "all weights, spaces with non-negative distances, data and centres", "why_tests_cant": "A statistical test on samples of one data set only estimates a probability, with an error, and could not tell a small bias.", "anchors": ["kmeans/init.go:WeightedChoice", "kmeans/init.go:PPIter", "kmeans/init.go:PPInitializer"]}
{"id": "C103", "title": "RandInitializer is uniform", "statement": "RandInitializer returns copies of the elements at the first k different positions drawn. After any number of draws, every list of k elements at different positions is obtained by the same number of sequences of draws; the proportion of the sequences of n draws which do not suffice is at most 2^m ((m-1)/m)^n for m elements, and the probability of each list tends to 1/(m(m-1)...(m-k+1)).", "quantifier": "all data, 1 <= k <= number of data, all numbers of draws", "why_tests_cant": "A test with a fixed seed sees one sequence of draws.", "anchors": ["kmeans/init.go:RandInitializer"]}
{"id": "C104", "title": "Distribution of the moves of MCMC (balance examined)", "statement": "For uniform draws and exact arithmetic: a proposal is accepted with probability min(1, rho). With three non-negative weights ProbaK of positive sum, the number of clusters proposed is one less, the same or one more with probabilities proportional to the weights, moves out of 1..min(MaxK, number of data) being replaced by staying. The acceptance does not compensate these probabilities: detailed balance between states of k and k+1 centroids holds exactly when the weights for removing and adding are equal.", "quantifier": "all configurations with three weights, all states, data and proposals", "why_tests_cant": "Acceptance is a probability; a run shows one outcome of each draw.", "anchors": ["mcmc/impl.go:nextK", "mcmc/impl.go:accept", "mcmc/impl.go:doIter", "kmeans/init.go:WeightedChoice"]}
{"id": "C105", "title": "Names of the initializers and of the statuses", "statement": "For every name made of seven-bit characters, CreateInitializer gives the first-elements initializer for given, k-means++ for pp and the random one for rand, whatever the case of the letters, and the nil function for any other name; calling the initializer made from such another name panics, whatever the data, and NewAlgo does not check it. String of the six statuses gives six different names, those of the constants; String of any other integer panics.", "quantifier": "all names of seven-bit characters, all data, all integers", "why_tests_cant": "A test tries a few names; the claim is about every spelling of each, and about every other name.", "anchors": ["kmeans/init.go:CreateInitializer", "core/status.go:String"]}
{"id": "C106", "title": "Clusterings do not depend on the coordinates", "statement": "In exact arithmetic, let f be any function on points, perhaps to another dimension, which multiplies the Euclidean distances by s > 0 (translations, rotations, reflections, changes of unit, added constant coordinates). Then Predict gives the image of an element the label of the element; k-means on the images, with any strategy, any number of iterations and any of the three initializers with the same draws, returns the images of its centroids; losses are multiplied by s to the power of the norm; the streaming algorithm, once initialised, returns for the same calls and thresholds the same errors, the images of its centres, and the figure maxDistance multiplied by s (this needs Init: Iterate before Init gives -1 in every unit).", "quantifier": "all such functions, all dimensions, all data, centroids, strategies, draws and sequences of calls", "why_tests_cant": "Metamorphic: relates two runs for every change of coordinates; a test tries a few.", "anchors": ["core/clustering.go:nearest", "kmeans/impl.go:Iterate", "kmeans/init.go:PPInitializer", "streaming/impl.go:Process"]}
{"id": "C107", "title": "The order and multiplicity of the data (rounding examined)", "statement": "In exact arithmetic the centroids of k-means, after any iterations, do not depend on the order of the elements in the buffer nor on the strategy; pushing every element r times instead of once changes nothing; the loss does not depend on the order and is multiplied by r. In float64 the order matters: on 2^55, 1, -2^55 the only centroid becomes 0, and at least 1/4 in the order 2^55, -2^55, 1.", "quantifier": "all data, permutations, multiplicities, strategies and numbers of iterations", "why_tests_cant": "Relates all orders of the data; a test compares a few orders, and passes or fails with rounding.", "anchors": ["core/clustering.go:ReduceDBA", "kmeans/seq.go:Iterate", "kmeans/par.go:Iterate", "core/clustering.go:TotalLoss"]}
{"id": "C108", "title": "Clusterings returned by the streaming algorithm are live (stability examined)", "statement": "The slice returned by Iterate, which the controller stores and Centroids() returns, is the slice the implementation keeps writing in. Claim examined: a clustering obtained from Centroids() keeps its values; false: after data 10, 12 the centroids are [11]; after one more element 20 and an iteration the slice obtained before shows [14]. What holds, for any history and any choice of capacities by the runtime: at return the slice shows the centres of the implementation; later it shows the first centres, as many as it has, that the implementation had at some moment since - the current ones as long as the array was not replaced by a larger one. A client writing in it sets a centre of the algorithm. The clustering returned by Init never changes, and no call writes in an array made before the algorithm. Apart from that the slices change no result and cause no panic: calls return the same values as on lists.", "quantifier": "all spaces, configurations, histories, capacities chosen by append, and slices returned", "why_tests_cant": "Whether a slice is shared after an append depends on the runtime; a test that compares the centroids at once never sees the change.", "anchors": ["streaming/impl.go:Iterate", "streaming/impl.go:UpdateCenter", "streaming/impl.go:AddCenter", "core/model.go:Centroids"]}
{"id": "C109", "title": "Predict while the streaming algorithm iterates (claim examined)", "statement": "Predict searches the nearest centroid in the slice given by Centroids(), then reads the centroid of that label, without a lock. Claim examined: the distance returned is the distance to the centroid returned; false while the streaming algorithm iterates: with the centroid 11 updated to 14 between the two, Predict(10) returns centroid 14, label 0, distance 1. What holds for every interleaving: Predict does not panic; label and distance are those of the nearest element of a list whose j-th element was the j-th centre at some moment since Centroids() was called, and the centroid returned was the centre of that label at some such moment. Without an iteration in between Predict is Assign on the centroids.", "quantifier": "all spaces, states, elements, and later states at which each read happens", "why_tests_cant": "A data race: a test would have to hit the window between two reads.", "anchors": ["core/ctrl.go:Predict", "core/clustering.go:Assign", "streaming/impl.go:UpdateCenter"]}
{"id": "C110", "title": "What a client observes of the streaming algorithm", "statement": "Behind the controller, with any clients, as long as the implementation is used by one goroutine at a time: no iteration panics; the clustering returned by an Iterate, n results of Init or Iterate having come before, accounts for the first n+1 elements given to NewAlgo or accepted by Push, in that order - each is in exactly one cluster, no cluster is empty, each centre is the running combination of its members (their mean in exact arithmetic); the clustering of an Init is the next element alone; every clustering returned by Centroids() is one of these.", "quantifier": "all executions of the controller with any number of clients whose record is that of the streaming implementation, all spaces, configurations, data and thresholds", "why_tests_cant": "Needs every interleaving of pushes with the receiving iterations.", "anchors": ["streaming/impl.go:Init,Iterate,Push,Process", "core/ctrl.go", "core/model.go:Centroids"]}
{"id": "C111", "title": "Batch on the streaming algorithm (termination examined)", "statement": "An iteration without waiting data returns no clustering and is not counted. Claim examined: Batch runs until Iter + IterPerData x pushed iterations and returns; what holds for one client: when the client has waited for the run, with a positive limit N, at least N+1 and at most as many results as elements were produced, and Centroids() accounts for the first ones, one for each result; so if N is not smaller than the number of elements given or pushed then the client never sees the end of the run, in any execution; in particular with IterPerData positive, no data given to NewAlgo and no second initialisation.", "quantifier": "all executions with one client which pushes, plays, waits, reads, stops after waiting, any number of times, and all configurations with a limit on the iterations and without time-out", "why_tests_cant": "The negative part is about every execution, of any length; a test can only time out.", "anchors": ["core/ctrl.go:Batch,run", "core/finish.go:IterFinishing", "streaming/impl.go:Iterate"]}
{"id": "C112", "title": "What a client observes of the MCMC algorithm", "statement": "Behind the controller, with one client: the calls of the implementation form a history of Push, Init and Iterate in which the elements pushed by the client are pushed and Iterate is called as often as it has returned; every clustering returned by Centroids() has at least one centroid, at most MaxK and not more than the elements given or pushed; an Iterate returns as many centroids as it was given, one more or one less; after waiting for a limited run, the centroids are those of a history with exactly the limit as number of iterations since the last Init. Claim examined: the figure Acceptations is at most the figure Iterations; it holds while Init was called once, and after a second Batch of two iterations Acceptations may be 4.", "quantifier": "all executions with one client (without limit, or played until the limit), all parameters with 1 <= InitK <= MaxK, all draws, spaces and data", "why_tests_cant": "Needs every interleaving of the client with the run and every sequence of random draws.", "anchors": ["mcmc/impl.go:Init,Iterate,Push", "core/ctrl.go", "core/model.go:Centroids,RuntimeFigures"]}
{"id": "C113", "title": "What the result of a call says, whatever the other goroutines do", "statement": "When a call of Init, Play, Pause, Stop or Wait returns, its result says something about the algorithm at the moment of the return or during the call, whatever the other goroutines did meanwhile. Init: either it is refused (already created) and the algorithm is neither Created nor Finished, or the implementation was initialised during the call, its error is returned, and the status is Ready, or Finished with this error. Play: on success the algorithm was Idle during the call or the call started a run; on error, the algorithm is Running, or the implementation refused to be initialised during the call and the algorithm is Finished with this error. Pause: on success the algorithm was Running during the call; the only error is not-running. Stop: not-alive only when the algorithm is Created or Finished; otherwise it was alive during the call and the result is the error of the status. Wait: on success the algorithm is Ready or Finished, or was Running during the call and, without a condition, Ready, Idle or Finished during the call; on error, Idle, Created, never finishing (with no limit configured), timed out, or Finished with this error. The claims that a successful Pause has seen Idle and that a successful Stop has seen Finished are examined: both are refuted.", "quantifier": "all reachable states of the controller, with any number of clients, runs, time-outs and a notifier, any implementation, any configuration, any past result of the record", "why_tests_cant": "A test observes one schedule; the result of a call says the same thing in all of them, including those where another goroutine acts between the decision and the return.", "anchors": ["core/ctrl.go:60-198", "core/algo.go:64-84", "core/timeout.go:42-88"]}
{"id": "C114", "title": "The dimension used by MCMC", "statement": "Space.Dim of a non-empty list of vectors of a common dimension n is n for the Euclidean and the cosine spaces, whatever the order of the data, and 0 for an empty list. On such data, with InitK at least 1 and any initialiser which gives K centroids, the dimension used by MCMC is n whenever it can iterate, after any history of pushes, initialisations and iterations; so the published rho is the Metropolis-Hastings ratio for the dimension n. Claim examined for series: Dim is the dimension of the points of the series; it holds when the first series is not empty, and fails otherwise, Dim being 0 whatever the other series.", "quantifier": "all data, all histories of MCMC, all draws; the ratio in exact arithmetic", "why_tests_cant": "The histories and the draws are unbounded; the tests call Dim on one or two samples.", "anchors": ["euclid/vectors.go:Dim", "cosinus/cosinus.go:Dim", "dtw/series.go:Dim", "mcmc/impl.go:Init,accept"]}
{"id": "C115", "title": "The density and the samples of the multivariate t distribution", "statement": "Pdf of the distribution made by NewMultivT is the logarithm of the density of the multivariate t distribution around mu, with Nu degrees of freedom (3 by default) and scale matrix the identity divided by sqrt(20 t), with its normalising constant: at any time t > 0 its exponential has integral 1. When the normal and chi-squared draws are independent and have these laws, Sample(mu, t) has a density, which is the exponential of Pdf(mu, ., 20 t^2). Claim examined: Pdf(mu, ., t) is the log-density of Sample(mu, t); it is refuted in every positive dimension, for all degrees of freedom, times and centres.", "quantifier": "all dimensions, degrees of freedom > 0, times > 0, centres; exact arithmetic over the reals; the draws range over the product of the normal laws and the chi-squared law", "why_tests_cant": "An integral over a space of any dimension and the law of a random vector cannot be computed by a test.", "anchors": ["mcmc/multivt.go:NewMultivT,setConf,Sample,Pdf"]}
{"id": "C116", "title": "The law of the decisions of the streaming algorithm", "statement": "Let the draws of norm.Rand() be independent, normal with mean Mu and deviation Sigma. In any state with clusters and a positive maximal distance, an element opens a cluster with probability 1 if it is an outlier (OutAfter elements seen and relative distance above OutRatio), otherwise with the probability that a draw is below the distance to the nearest centre over the maximal distance; otherwise it is merged. With n elements waiting, the sizes of the clusterings returned by the n next iterations follow given decisions with the product of the probabilities of these decisions, each in the state left by those before. The probability grows with the distance, and is one half at the relative distance Mu. While the maximal distance is 0 the first positive distance gives the probability of a draw below 1, whatever this distance. Claim examined: an element at distance 0 of a centre is merged with it; with Sigma not 0 it opens a second cluster with a positive probability (at most one half when Mu and OutRatio are not negative).", "quantifier": "all spaces with distances >= 0, all configurations and states (clusters, cards, count, queue) as stated, all sequences of waiting elements and decisions; the draws range over the product of the normal laws; exact arithmetic over the reals", "why_tests_cant": "A probability over the draws cannot be observed in a run; the tests fix the seed.", "anchors": ["streaming/impl.go:Process,Iterate,GetRelativeDistance,UpdateMaxDistance,AddCenter,AddOutlier,UpdateCenter"]}
{"id": "C117", "title": "Every call of a client returns", "statement": "Let one client use an algorithm with a limit on its iterations (Iter or IterPerData), without time-out, Finishing or notifier errors, as in C82: Batch, or Init, Push, Play, Pause, Wait(nil, 0), Stop and readers in any order, provided that after Play only readers are called until Wait has returned, and that a new run begins when the goroutine of the former one is over. If Init and Iterate do not fail, if Iterate is without result only finitely often, and if something happens as long as the client is in a call and some goroutine can act (nothing is supposed of each goroutine), then every call returns: Wait when the run reaches its limit, whatever the run and the notification loop do meanwhile. In particular some goroutine can act whenever the client is in a call. Claim examined: that a limit of iterations suffices for Wait to return; an Iterate without result does not count, and an execution exists in which the run works all the time and Wait never returns.", "quantifier": "all configurations with a limit, all infinite sequences of states which are executions of one client (with pauses of any length), all times of such an execution, all schedules of the goroutines and all answers of the implementation as stated", "why_tests_cant": "Liveness concerns infinite executions, under all schedules; a test sees one schedule and a finite time.", "anchors": ["core/ctrl.go:Batch,Play,Wait,Stop,Init,Push,run,recover,saveIterContext", "core/algo.go:setStatus,sendStatus,receiveStatus,notify"]}
{"id": "C118", "title": "Copying an algorithm which works (consistency examined)", "statement": "Copy may be called on a k-means or MCMC algorithm while its run, or another client, stores data. Each position of the copied data is what the original had at this position when it was read. Without FrameSize the copy has exactly the data stored when Copy was called, whatever is stored meanwhile; with a frame it has them if the elements stored meanwhile fit in the room left. In all cases every element of the copy was stored before Copy or during it, and if these are all different none appears twice. Claim examined: that the copy is a state of the original; with a full frame it may hold an element while more recent ones are missing, which the original never did.", "quantifier": "all histories of the original's buffer before Copy, all interleavings of the reads of Copy with stores, all growth choices of append", "why_tests_cant": "The interleavings are not controllable in a test, and their number is unbounded.", "anchors": ["core/ctrl.go:Copy", "core/buffer.go:NewDataBuffer,Data,Push,applyNext", "kmeans/impl.go:Copy", "mcmc/impl.go:Copy"]}
{"id": "C119", "title": "Without a limit, every call returns if the scheduler is fair", "statement": "Let one client use an algorithm whose runs have no limit (Iter 0, IterPerData 0, no time-out, no Finishing, no automatic start) as in C58: Init, Push, Play, Pause, Wait(nil, 0), Stop and readers in any order, except Stop when paused; Init and Iterate do not fail. If the execution is fair, that is if a goroutine which can move again and again moves again and again (to begin a call is never owed), then every call returns though the run may iterate forever: neither the run nor the notification loop keeps the client in Pause, Stop, Play or a reader. Claim examined: that it is enough that something happens all the time (which is enough with a limit, C117); an execution exists in which the run works all the time and Status(), which could go on at every time, never returns.", "quantifier": "all configurations without limit, all infinite fair sequences of states which are executions of one client, all times of such an execution, all answers of the implementation as stated", "why_tests_cant": "Liveness concerns infinite executions, under all fair schedules; a test sees one schedule and a finite time.", "anchors": ["core/ctrl.go:Play,Pause,Wait,Stop,Init,Push,run,recover,saveIterContext", "core/algo.go:setStatus,sendStatus,receiveStatus,notify", "core/model.go:Status,Centroids,RuntimeFigures,Conf"]}
{"id": "C120", "title": "A configuration changed during the life of the algorithm", "statement": "Conf() returns the configuration object itself, which a client may write at any time. Whatever is written and whenever, the history of the status, the figures, the origin of the centroids, the time-outs and the channels stay right (C53, C55, C57, C65, C68); as long as nothing is written the algorithm is that of the other properties. A run works with the limits it read when it started: it calls Iterate only below them and records no iteration beyond. Claims examined: a limit lowered during a run is exceeded, a limit raised has no effect on the run, Wait answers ErrNeverFinish about a run which ends by itself, and Wait never returns from a run without limit though the configuration has got one.", "quantifier": "every execution, with any number of goroutines and of writings of the configuration", "why_tests_cant": "Needs every moment at which a field may be written; a call which never returns cannot be observed.", "anchors": ["core/ctrl.go:run", "core/ctrl.go:CanNeverFinish", "core/ctrl.go:Wait", "core/ctrl.go:Play", "core/ctrl.go:Push", "core/model.go:Conf", "core/conf.go:Ctrl"]}
{"id": "C121", "title": "Optimality of the result of k-means (examined)", "statement": "In exact Euclidean arithmetic, with one centroid: the first iteration gives the mean of the data whatever the centroid it starts from, further iterations leave it, and its loss (norm 2) is smaller than that of any other centroid; through the controller, the centroid observed after Batch is the mean of all the data given and pushed. Claim examined, with two centroids or more: that the clustering k-means converges to has the smallest loss, or a loss within some factor of it; for every factor there are four points such that k-means started from two of them stops at a clustering worse than another one by more than this factor.", "quantifier": "all data, dimensions, first centroids, strategies, degrees of parallelism, numbers of iterations; all factors", "why_tests_cant": "A global minimum is over all centroids, and a bound over all data; a test compares with a few.", "anchors": ["kmeans/impl.go:Iterate", "kmeans/seq.go:Iterate", "kmeans/par.go:Iterate", "core/clustering.go:TotalLoss"]}
{"id": "C122", "title": "Quality of the centroids drawn by k-means++ (examined for norm 2)", "statement": "For every pseudometric in exact arithmetic (the Euclidean distance is one), with uniform independent draws: the mean of the loss of norm 1 of the k centroids returned by PPInitializer is at most 4 (1 + 1 + 1/2 + ... + 1/(k-1)), so at most 4 (2 + ln k), times the loss of any k centroids, the best included. For draws different from 0 it returns k centroids, or an error when fewer centroids have already no loss. Claims examined: the guarantee for the loss of norm 2, which k-means decreases, fails by any factor (three points, two centroids); GivenInitializer and RandInitializer have no guarantee even for norm 1; an iteration of k-means may increase the loss of norm 1.", "quantifier": "all spaces with a pseudometric, all data, numbers of centroids and centroids to compare with; the draws range over the product of the uniform laws", "why_tests_cant": "A mean over the draws and a comparison with all centroids cannot be computed by a test.", "anchors": ["kmeans/init.go:PPInitializer", "kmeans/init.go:PPIter", "kmeans/init.go:WeightedChoice", "kmeans/init.go:GivenInitializer", "kmeans/init.go:RandInitializer", "core/clustering.go:TotalLoss"]}
{"id": "C123", "title": "K-means in the cosine space (examined)", "statement": "In exact arithmetic, for data which have all the same norm and a positive product with some vector (for instance non-negative data which are not zero), as have the first centroids: an iteration of k-means in the cosine space does not increase the loss of norm 1 and keeps the centroids away from the zero vector; along a run the losses never increase. Claims examined: without the same norm the loss of norm 1 may increase (the long vectors attract the mean), and the loss of norm 2 may increase even for data of the same norm.", "quantifier": "all data, dimensions, first centroids, strategies, degrees of parallelism, numbers of iterations", "why_tests_cant": "The inequality is over all data and all centroids; an increase shows up only for particular data.", "anchors": ["cosinus/cosinus.go:Dist", "cosinus/cosinus.go:Combine", "kmeans/seq.go:Iterate", "kmeans/par.go:Iterate", "core/clustering.go:TotalLoss"]}
{"id": "C124", "title": "Elements of different dimensions, and what a panic of an iteration ends (examined)", "statement": "On points of one dimension an iteration of k-means does not panic. On points of any dimensions, in the Euclidean and the cosine space: the sequential iteration returns exactly when no point has more coordinates than a centroid and the first point of each cluster has no more coordinates than the others of the cluster; otherwise it panics in the goroutine of the run, which recovers (the status is Finished, with an error). The parallel iteration ends the whole process exactly when the data of one of its goroutines, taken alone, are in this case: nothing recovers a panic in a goroutine launched by Par. So one pushed point with more coordinates than a centroid ends the run with the sequential strategy and the process with the parallel one, whatever the degree; the same for the loss of mcmc. When the parallel iteration returns so does the sequential one. Claims examined: the converse fails (points of dimensions 1, 3, 2), and the aggregation may panic in the run when no goroutine does.", "quantifier": "all points of all dimensions, centroids, numbers of goroutines", "why_tests_cant": "A process which ends takes the test with it; the frontier between the cases is over all dimensions and all distributions of the data among the goroutines.", "anchors": ["core/util.go:Par", "core/par_dba.go:parReduceDBA", "core/par_dba.go:dbaAggregate", "core/par_loss.go:parLoss", "core/clustering.go:ReduceDBA", "core/ctrl.go:recover", "kmeans/seq.go:Iterate", "kmeans/par.go:Iterate", "mcmc/par.go:Loss", "euclid/vectors.go:PointDist", "euclid/vectors.go:PointCombine", "cosinus/cosinus.go:ScalarProduct"]}
{"id": "C125", "title": "A panic of the user's code outside Init leaves the controller as an ordinary execution could", "statement": "impl.Push, the condition given to Wait and the finishing condition of the configuration may panic each time they are called, in any execution with any number of clients. Whatever happens then, the controller is in a state which it can reach with no such panic: same status, locks, channels, centroids, counters, figures, time-outs and goroutines (up to the duration of the calls of Wait in progress with a condition), same record of the statuses set and notified, of the centroids saved and of the data counted. In particular no lock is left locked. A panic of impl.Push or of the condition of Wait changes nothing but its caller; a panic of the finishing condition ends the run, whose next action sets the status Finished with the value of the panic as error.", "quantifier": "all executions, configurations, numbers of clients, panics of these calls", "why_tests_cant": "A panic has to be raised at each point of each execution, with clients blocked in a send at that time; that nothing is left behind is a statement on all of them.", "anchors": ["core/ctrl.go:Push", "core/ctrl.go:Wait", "core/ctrl.go:run", "core/ctrl.go:recover", "core/timeout.go:WaitTimeout"]}
{"id": "C126", "title": "One datum with a NaN coordinate (examined)", "statement": "Push accepts a point with a NaN coordinate. In the Euclidean and the cosine space, with an arithmetic where NaN is absorbing: k-means is reduced to one cluster after the first iteration which sees such a point, sequential or parallel and whatever the centroids: the first centroid has a NaN, every prediction is label 0 with distance NaN, and the other centroids do not change any more as long as such a point is in the data; the next iteration combines all the data in the first centroid. Streaming merges the point in its first centre and from then on, for ever, every element goes to the first centre: no centre is added, no other centre changes, the maximal distance is NaN if it was not known yet. Mcmc rejects every proposal as long as the point is in the data; if the point was there at Init, the current loss is NaN and nothing is accepted until the next Init, even when the point has left the data. The claim examined, that such a point harms its own cluster only, fails for the three algorithms.", "quantifier": "all data, centroids, configurations, draws, degrees, sequences of calls", "why_tests_cant": "The state after a NaN is silent: no error and no panic is returned, and the effect depends on the order of the comparisons in all the loops which follow.", "anchors": ["core/clustering.go:nearest", "core/clustering.go:ReduceDBA", "core/par_dba.go:parReduceDBA", "core/clustering.go:TotalLoss", "core/par_loss.go:parLoss", "kmeans/seq.go:Iterate", "kmeans/par.go:Iterate", "streaming/impl.go:Process", "streaming/impl.go:GetRelativeDistance", "mcmc/impl.go:accept", "mcmc/impl.go:Init", "euclid/vectors.go:PointDist", "euclid/vectors.go:PointCombine", "cosinus/cosinus.go:PointDist"]}
{"id": "C127", "title": "What Batch computes does not depend on the schedule", "statement": "One client which plays until the limit (Iter or IterPerData, no time-out) and changes nothing while a run goes on, an implementation which does not fail. When the client has waited, the calls Push, Init and Iterate which the implementation has answered are exactly those which a sequential plan derives from the completed calls of the client: one Push for each Push which returned nil, one Init for each Init or Play on a new or stopped algorithm, and for each Play the iterations missing to the limit. Between two calls of the client they are a beginning of that plan. Hence, if the implementation is a sequential machine (its state contains the data and the random generator), two executions with the same calls and results, readings left aside, on the same elements end with the same centroids, the same state of the implementation and of its generator, the same iterations and the same count of elements, whatever the schedules. k-means and mcmc with a generator of their own are such machines. The same claim for a client which pushes during a run is examined and fails: the same calls with the same results give different centroids.", "quantifier": "all configurations with an iteration limit, clients of this kind, sequences of calls, machines, initial states, elements, schedules", "why_tests_cant": "A test runs one schedule; reproducibility is a statement about all pairs of them, and repeated runs with a fixed seed sample a few.", "anchors": ["core/ctrl.go:Play", "core/ctrl.go:Push", "core/ctrl.go:Init", "core/ctrl.go:Batch", "core/ctrl.go:Wait", "core/ctrl.go:run", "core/ctrl.go:init", "core/ctrl.go:recover", "core/ctrl.go:saveIterContext", "kmeans/impl.go:Init", "kmeans/impl.go:Iterate", "kmeans/impl.go:Push", "mcmc/impl.go:Init", "mcmc/impl.go:Iterate", "mcmc/impl.go:Push"]}
{"id": "C128", "title": "The random generators of a copy (independence examined)", "statement": "Two algorithms which have no generator in common, in their configurations or their distributions, do not influence each other: whatever the order of their calls each one computes what it computes alone. A copy of a k-means algorithm made with a configuration which has another generator is independent of the original in this sense. A copy of an mcmc algorithm is not, whatever generator the new configuration has: its implementation is made with the generator of the original's configuration, and each iteration of the copy which returns draws from that generator, so that the same calls in another order give other centroids to the copy and to the original.", "quantifier": "all generators, configurations, data, states, orders of the calls of the two algorithms", "why_tests_cant": "The order of the calls of two algorithms is not controlled by a test, and the centroids which another generator would have given are not observed.", "anchors": ["core/ctrl.go:Copy", "mcmc/impl.go:Copy", "kmeans/impl.go:Copy", "mcmc/seq.go:NewSeqImpl", "mcmc/store.go:NewCenterStore", "mcmc/store.go:GetCenters", "mcmc/impl.go:accept", "mcmc/impl.go:nextK", "kmeans/init.go:WeightedChoice"]}
{"id": "C129", "title": "K-means on series (convergence examined)", "statement": "In the space of series (dtw), with a positive window, or without window if no series is more than twice as long as another, no iteration of k-means panics nor ends the process, sequential or parallel, however many are made; the centroids are as many as at the start, their lengths stay between the shortest and the longest of the series and initial centroids, and their points stay in every set which contains the given points and is closed under combination. But an iteration may make the loss larger, for the norm 1 and the norm 2; the centroids may never settle, even in exact arithmetic and on four series of the same length; the mean of a cluster depends on the order of its series; and the parallel iteration does not compute what the sequential one does. Without window and with series of lengths 1 and 3 the sequential iteration panics and the parallel one ends the process.", "quantifier": "all series, initial centroids, windows, inner spaces, degrees of parallelism, numbers of iterations; the negations have concrete witnesses", "why_tests_cant": "A test observes some iterations on some series; that no number of iterations ends the wandering of the centroids, or that none panics, is not observable.", "anchors": ["dtw/series.go:Dist", "dtw/series.go:Combine", "dtw/dtw.go:DBA", "kmeans/seq.go:Iterate", "kmeans/par.go:Iterate", "core/clustering.go:ReduceDBA", "core/par_dba.go:parReduceDBA"]}
{"id": "C130", "title": "One datum with an infinite coordinate (examined)", "statement": "Push accepts any element. In the Euclidean space, from finite centroids, data with a coordinate +Inf (the other coordinates finite or +Inf) all go to the first cluster, whose centroid becomes infinite after one iteration and stays so; with at least two centroids the finite data never have its label, and the other centroids are finite and, with the sequential strategy, those which k-means computes from the last k - 1 centroids of the first iteration on the finite data alone: one cluster is lost, not the clustering. With one centroid, everything is lost. In streaming, such an element becomes a centre, and if it is processed before outAfter the maximal distance becomes infinite: from then on no centre is ever added, whatever is pushed and drawn (thresholds not negative). The same if it is processed when no positive distance is known; then the first centre is lost too. After outAfter it is an outlier and does no other harm. If a coordinate is +Inf in a datum and -Inf in another one, the first centroid has a NaN after one iteration and every element has the label 0. In the cosine space one coordinate which is not finite is enough for that.", "quantifier": "all data, centroids, dimensions, degrees of parallelism, numbers of iterations, sequences of pushes and draws", "why_tests_cant": "A test can push one infinity; that the other k - 1 clusters are for ever those of a run without it, or that no later element is ever a new centre, is about all continuations.", "anchors": ["kmeans/seq.go:Iterate", "kmeans/par.go:Iterate", "core/clustering.go:nearest", "streaming/impl.go:Process", "streaming/impl.go:GetRelativeDistance", "euclid/vectors.go:PointDist", "euclid/vectors.go:PointCombine", "cosinus/cosinus.go:PointDist"]}
{"id": "C131", "title": "Finite data stay finite (examined)", "statement": "With the float64 of IEEE 754 (rounding, overflow, infinities, NaN): if the magnitudes of the coordinates of the data and of the first centroids are at most 2^484, and there are at most 2^53 coordinates and data, then every distance in the Euclidean space is a finite number and the labels are those computed by the arithmetic without overflow; so is every combination, which stays within the bound; the centroids of k-means after any number of iterations, sequential or parallel, are finite, within the bound, and those which the arithmetic without overflow computes, so that what is proved of that arithmetic (C98 to C101) is true of float64. In the cosine space, whose distances may be NaN, the centroids are finite and within the bound too. In streaming, after any history which consumes at most 2^53 elements, the centres are finite and within the bound, and so is the maximal distance (Euclidean space). Without the bound all this fails: the mean of 2^1023 and 2^1023 is computed as +Inf, and so is an iteration of k-means on them; the distance between 0 and 2^512 is computed as +Inf; 2^514 is assigned to 0 although 2^513 is nearer. A NaN is absorbing in this arithmetic, so that C126 holds with rounding and overflow.", "quantifier": "all data within the bound, dimensions, degrees of parallelism, numbers of iterations, histories, draws", "why_tests_cant": "A test runs on a few data of ordinary magnitude; that no intermediate sum or square can overflow in any tree of combinations is about all data up to the bound.", "anchors": ["euclid/vectors.go:PointDist", "euclid/vectors.go:PointCombine", "cosinus/cosinus.go:PointDist", "core/clustering.go:nearest", "kmeans/seq.go:Iterate", "kmeans/par.go:Iterate", "streaming/impl.go:Process"]}
{"id": "C132", "title": "Streaming centres are means, with rounding (examined)", "statement": "With the float64 of IEEE 754, in the Euclidean or the cosine space, if the magnitudes of the coordinates are at most 2^k with k at most 484: after any history of the streaming algorithm which consumes at most 2^53 elements there is a labelling of the elements consumed in which the cardinalities are the numbers of members and every centre is the mean of its members up to an error, per coordinate, of c (2^(k-50) + 2^-1072) for c members (c at most 2^50); and the sum of the centres weighted by the cardinalities is the sum of the elements up to the corresponding error. The centre does not always follow its elements: with 2^55 members, merging 1 into the centre 2 leaves 2.", "quantifier": "all histories, data within the bound, draws, configurations", "why_tests_cant": "A test compares a few centres with a tolerance chosen by hand; the bound holds for every order of arrival and every decision of the algorithm.", "anchors": ["streaming/impl.go:Process", "streaming/impl.go:UpdateCenter", "streaming/impl.go:Init", "euclid/vectors.go:PointCombine"]}
{"id": "C133", "title": "k-means run again and again (examined)", "statement": "One client which runs k-means as often as it likes (Push, Init, Play, Wait, Stop, Batch in any order, waiting for every run before it does something else): when it has waited, Centroids() is the result of the iterations since the last initialisation, each one on what it sees of the data pushed. After a Batch, however many there have been before, that is k-means on the data of NewAlgo and all that was pushed before the Batch, with initial centroids computed on these data; the number of iterations is Iter plus, only when the algorithm had never been stopped, IterPerData for every element pushed. Elements pushed after the Batch do not matter until the next run. Hence after every Batch the number of centroids is that of the initializer, with enough iterations they are stationary for all the data (exact arithmetic), and a single centroid is their mean. When a Ready algorithm is played again the run makes the iterations which the new elements ask for, and the first of them does not see these elements: with one new element and IterPerData 1 the second run changes nothing.", "quantifier": "all executions with one client which waits for its runs, all data, initializers, window sizes, strategies, spaces", "why_tests_cant": "The tests push, play once and look at the result; that a second Batch starts afresh from all the data and that a second Play ignores the new element at first depend on the sequence of calls.", "anchors": ["core/ctrl.go:Batch", "core/ctrl.go:Play", "kmeans/impl.go:Init", "kmeans/impl.go:Iterate", "kmeans/impl.go:Push", "core/buffer.go:Apply", "core/ctrl.go:Init"]}
{"id": "C134", "title": "The DTW distance as a distance between series (triangle inequality examined)", "statement": "Dist of dtw.Space, on series which it does not resize: for series of the same length it is at most the sum of the distances of their points taken in order, for every window; it is at least the sum, over the points of either series, of any lower bounds of the distance of the point to the points of the other one in the window; and at least the distance of the first points and that of the last points. With a point distance that separates points, series at distance 0 are equal up to points repeated one after the other, and if the window covers both series all such series are at distance 0. The triangle inequality is false: two different series at distance 0 may be at distances 2 and 4 of a third one, and no constant factor repairs it. With a window that covers the outer series it holds with factors: the distance of x and z is at most the number of points of z (or 2w+1) times the distance of x and y, plus the number of points of x (or 2w+1) times the distance of y and z.", "quantifier": "all series, all windows under which the lengths fit, all point spaces with non-negative distances (metric where said); exact arithmetic", "why_tests_cant": "Bounds over all warping paths; the failure of the triangle inequality needs three chosen series, and that no factor repairs it a family of series of growing length.", "anchors": ["dtw/series.go:Dist", "dtw/dtw.go:NewDTWWindow", "dtw/cost.go:computeCumCost", "dtw/cost.go:Get", "dtw/interpolate.go:ShrinkLongest"]}
{"id": "C135", "title": "When mcmc accepts nothing, or does not look at the loss (claim examined: an accepted configuration works)", "statement": "mcmc.NewAlgo does not check B and Amp, nor the dimension. In float64: with a negative B, which NewAlgo accepts, every acceptance ratio is NaN, so that in any history no proposal is accepted and the centroids are those of the last successful Init. The same happens for every configuration with the multivariate t distribution when the dimension plus Nu is 344 or more (dimension 341 with the default Nu), because math.Gamma overflows; with the default Nu the factor of the densities is finite for dimensions 1 to 340 and +Inf from 341 on. When Amp is not set it stays 0: the acceptance ratio then does not depend on the losses, as long as their difference is finite, and a proposal with the number of centres and density of the current state is accepted by every draw. With the multivariate t distribution the density computed for a proposal depends on the number of its centres and on the time, not on the centres.", "quantifier": "all configurations, data, draws, histories of Init, Push and Iterate; float64 with rounding, overflow and NaN; dimensions and numbers of data up to 2^53", "why_tests_cant": "Nothing fails visibly: the algorithm runs and returns centroids; that no history at all accepts a proposal, and the exact dimension where this begins, are not results of finitely many runs.", "anchors": ["mcmc/conf.go:Verify", "mcmc/conf.go:SetDefaultValues", "mcmc/impl.go:accept", "mcmc/impl.go:doIter", "mcmc/impl.go:proba", "mcmc/multivt.go:NewMultivT", "mcmc/multivt.go:Pdf"]}
{"id": "C136", "title": "The number of centres of the streaming algorithm is not bounded (claim examined: close data give few centres)", "statement": "In exact arithmetic, on the real line, with draws between a and b where 0 < a <= b < 1 and OutRatio at least 1: for every n there are data in the interval from 0 to 1 for which Push and Iterate give at least n centres, all in this interval, whatever the draws are, while the maximal distance stays 1; with independent normal draws this has a positive probability. With a negative OutRatio, which NewAlgo accepts, once OutAfter elements were processed and the maximal distance is positive, every element opens a centre, even one equal to a centre. With OutRatio and the draws not negative, elements equal to centres open none and move none, however many they are.", "quantifier": "all configurations, all n, all draws in the range; for the last two parts all states, all sequences of elements and draws, any space with distances which are not negative (the Euclidean one for the last)", "why_tests_cant": "No run shows that the number of centres is unbounded; that it holds whatever the draws are needs data built from a divergent series.", "anchors": ["streaming/impl.go:Process", "streaming/impl.go:GetRelativeDistance", "streaming/impl.go:AddCenter", "streaming/impl.go:AddOutlier", "streaming/impl.go:UpdateCenter", "streaming/impl.go:Iterate", "streaming/impl.go:Push", "streaming/conf.go:Verify"]}
{"id": "C137", "title": "One datum which is not finite stops mcmc (claim examined: mcmc rejects outliers)", "statement": "In float64 arithmetic (rounding, overflow, infinities, NaN), with a finite positive Norm: a point with an infinite or NaN coordinate is at the distance +Inf or NaN of every point in the Euclidean space, NaN of itself, and NaN of every point in the cosine space. While an element whose distances are all +Inf or NaN is in the data, every loss is +Inf or NaN and, if Amp and the draws are not negative, every proposal is rejected; with an unlimited buffer this lasts for ever: the acceptations, the stored centres and, but for Init, the centroids never change again. If the first initial centroid is at the distance NaN of such an element (for example is this element), nothing is accepted until the next Init even if the element leaves the buffer. If the current loss is +Inf, then the first proposal of finite loss is accepted whatever the draw, if the rest of the ratio is finite. NewAlgo accepts a negative Amp, with which the ratio increases with the loss of the proposal, and proposals of infinite loss are accepted whatever the draw.", "quantifier": "all formats of floating point numbers, all spaces and data, all histories of Init, Push and Iterate, all draws which are not negative; sequential and parallel losses", "why_tests_cant": "One run sees one acceptance decision; that no draw, proposal or history makes mcmc accept again needs the absorption of infinity and NaN through every sum of the loss.", "anchors": ["mcmc/impl.go:Iterate", "mcmc/impl.go:Init", "mcmc/seq.go:Loss", "mcmc/par.go:Loss", "core/clustering.go:TotalLoss", "core/clustering.go:ParTotalLoss", "euclid/vectors.go:PointDist", "cosinus/cosinus.go:PointDist", "mcmc/conf.go:Verify", "core/buffer.go:Push"]}
{"id": "C138", "title": "Exactly when the reductions of a clustering panic (agreement of the parallel ones examined)", "statement": "ReduceDBA, ReduceLoss and TotalLoss panic if and only if there are elements and no centroid; ParReduceDBA, ParReduceLoss and ParTotalLoss in this case and for each degree below one. ReduceDBAForLabels and ReduceLossForLabels panic if and only if an element has no label or a label which is not the index of a centroid. ParReduceDBAForLabels and ParReduceLossForLabels read the labels of the array below the slice: they panic if and only if the degree is below one, or an element has no label in the capacity of the slice or one out of range; if the slice is too short but its array is not, they return a result which counts labels after the end of the slice, where the sequential functions panic.", "quantifier": "all clusterings, elements, labels, capacities and degrees; no law on the space nor on the numbers but -1 < 0", "why_tests_cant": "The panics depend on the length, the capacity and each value of the labels, and on the cut into parts; a test sees single combinations.", "anchors": ["core/clustering.go:ReduceDBA", "core/clustering.go:ReduceDBAForLabels", "core/clustering.go:ReduceLoss", "core/clustering.go:ReduceLossForLabels", "core/clustering.go:TotalLoss", "core/par_dba.go:parDBAForLabels", "core/par_dba.go:parReduceDBA", "core/par_loss.go:parLossForLabels", "core/par_loss.go:parLoss"]}
{"id": "C139", "title": "The rounding of the losses (equality of the sequential and the parallel loss examined)", "statement": "TotalLoss and ParTotalLoss add, each in some order, the powers of the distances of the data to their nearest centroids, each datum once. With rounding to the nearest, each of the two is the exact sum of these powers up to N - 1 relative errors for N data, so they differ by the rounding only; in a Euclidean space of dimension n with norm 2 each is the exact loss up to a relative error of (N + n + 5)/2^52, underflow apart. The two are not equal in general: with one centroid at 0, the data 2^55, 3 and 3 and norm 1, the sequential loss is 2^55 and the parallel one of degree 2 is 2^55 + 8.", "quantifier": "all centroids, data, degrees and dimensions; order of the additions: any arithmetic; errors: any rounding, and float64", "why_tests_cant": "The order of the additions depends on the labels, on the number of processors and on the length of the data, and the error on all of them; tests compare with a tolerance on a few data.", "anchors": ["core/clustering.go:TotalLoss", "core/clustering.go:ParTotalLoss", "core/clustering.go:ReduceLoss", "core/par_loss.go:parLoss", "core/par_loss.go:lossAggregate", "euclid/vectors.go:PointDist"]}
{"id": "C140", "title": "The cosine space with rounding (claim examined: an element which is a centroid is labelled with it)", "statement": "With rounding, the cosine distance of two vectors which are not zero is the exact one up to (n + 3)/2^49 in float64 (dimension n, no underflow), and Assign returns a nearest centroid up to twice this error for an element whose distance to each centroid is above the error. For the other elements it does not: the distance of (2, 3) to itself is computed as -2^-52, and a centroid at a negative distance is passed over for each centroid which comes after it. With the centroids (2, 3) and (-2, -3) the element (2, 3) gets the label of (-2, -3), and an iteration of k-means on these two data with these two centroids makes the second centroid the null vector; the streaming algorithm opens a second centre for (2, 3) coming twice, for each threshold below 1. The distance is not symmetric either: d((0,3),(1,3)) and d((1,3),(0,3)) differ by 2^-53.", "quantifier": "all vectors, centroids and dimensions; any rounding for the error; float64 for the witnesses", "why_tests_cant": "The tests of the cosine space compare distances with a tolerance and label vectors whose self-distance is not negative; it takes the bits of a rounded square root to see the defect.", "anchors": ["cosinus/cosinus.go:PointDist", "cosinus/cosinus.go:Cosinus", "cosinus/cosinus.go:Norm", "cosinus/cosinus.go:ScalarProduct", "core/clustering.go:nearest", "core/clustering.go:Assign", "core/clustering.go:ReduceDBA", "streaming/impl.go:GetRelativeDistance"]}
{"id": "C141", "title": "The weighted choice with rounding (claim examined: it never panics)", "statement": "With rounding, non-negative weights of positive sum and a draw whose product with the sum does not underflow, an index which WeightedChoice returns is in range, has a positive weight, and is the index of exact arithmetic for a draw within the relative distance N/2^51 in float64 (N weights); the error of the null set is returned exactly when all weights are zero; PPIter returns a datum at a positive computed distance of all centres, and the null set error exactly when every datum is at a computed distance 0 of a centre. WeightedChoice does not panic for draws up to 1 - N/2^52, nor with weights which are integers of sum at most 2^53; with the default ProbaK nextK does not panic for any draw of rand.Float64 but 0. The claim that no draw below 1 makes it panic is false: the weights 0.29, 0.69, 0.02 (of sum 1) and the draw 1 - 2^-53 are an index panic, so that mcmc with these ProbaK panics; so do the data 2^54, 3, 3, 3, 3, 3 of the line with the centre 0 in PPIter.", "quantifier": "all weights, draws, spaces with non-negative distances, data and centres; any rounding for the errors; float64 for the witnesses", "why_tests_cant": "The probability of the panic is of the order of N/2^52 for each draw: no test meets it by chance, and the repository's tests use integer weights, which are proved safe.", "anchors": ["kmeans/init.go:WeightedChoice", "kmeans/init.go:PPIter", "mcmc/impl.go:nextK", "mcmc/conf.go:SetDefaultValues"]}
{"id": "C142", "title": "Which vectors the clusterings share with the caller (claim examined: a client may reuse a vector after Push)", "statement": "Elements are references: the caller may write in a vector after having given it. Given and random initial centroids are new vectors; the first centroid of PPInitializer is the datum drawn itself, the others are new. After an iteration of k-means the centroid of a cluster which received an element is a new vector and that of an empty cluster is the reference it was; so, where distances are not negative and that of a vector to itself is 0, once an iteration has run on data holding the datum drawn first, no write of the caller changes a centroid, whatever the data and the memory become. In streaming, after any sequence of calls and writes, a centre of cardinality 1 is the very vector which the caller gave (at the construction or by Push) and a centre of greater cardinality is a new vector: a write in a vector changes the centres of cardinality 1 opened with it and no other. Between two writes every call computes what it computes without sharing. The claim is false: a client which pushes 10, initialises, writes 20 in the same vector, pushes it again and iterates gets the centre 20 of cardinality 2 instead of 15; and the centroids which PPInitializer returned change with the datum.", "quantifier": "all spaces whose Combine and Copy make new vectors, all memories, all sequences of calls and writes, all draws", "why_tests_cant": "Tests build a new vector for each element, so that no test sees an alias; the effect depends on the cardinality of the centre at the moment of the write.", "anchors": ["streaming/impl.go:Init", "streaming/impl.go:Push", "streaming/impl.go:AddCenter", "streaming/impl.go:AddOutlier", "streaming/impl.go:UpdateCenter", "kmeans/init.go:PPInitializer", "kmeans/init.go:GivenInitializer", "kmeans/init.go:RandInitializer", "kmeans/seq.go:buildResult", "euclid/vectors.go:PointCopy"]}
{"id": "C143", "title": "mcmc with the Dirac distribution, and the memory of the centre store (claims examined: Dirac leaves the Gibbs target; Init starts afresh)", "statement": "With Dirac, which returns 1 where MultivT returns a log-density, after any history the published rho is the ratio of the Gibbs measure divided by e for each cluster: the moves between k and k + 1 clusters are in balance with that measure exactly when the weights of adding (c) and removing (a) are equal, and with the Gibbs measure exactly when c = e a, which is false for the default ProbaK. For every distribution, a proposal of k clusters for which the store holds centres starts from these, whatever the current centroids and the last Init. With Dirac, on constant data: iterations which keep k are iterations of k-means, all accepted (Euclidean space, norm 2, Amp not negative), so that after k^n of them the stored centres of size k are stationary; stationary stored centres of size k stay for ever, and every clustering of k centroids accepted is then this one; when all sizes are stationary the algorithm only chooses among one clustering for each number of clusters. The claim that Init starts afresh is false: on the data 0, 5, 9, a second Init which draws 5 and 9 is followed by 0 and 7, the clustering of the former run, where a new algorithm goes to 2.5 and 9.", "quantifier": "all spaces, data, configurations, histories and draws; exact arithmetic for the ratio, the balance and k-means", "why_tests_cant": "The bias is a factor on the probabilities of moves, and the memory of the store shows only in the second run of an instance; tests check neither.", "anchors": ["mcmc/dirac.go:Pdf", "mcmc/dirac.go:Sample", "mcmc/impl.go:accept", "mcmc/impl.go:proba", "mcmc/impl.go:getKCenters", "mcmc/impl.go:Init", "mcmc/store.go:GetCenters"]}
{"id": "C144", "title": "null vectors in the cosine space (claim examined: finite data without NaN are harmless)", "statement": "With rounding, overflow and the special values, the cosine distance between a vector of zeros and any vector is NaN, in both orders. Then: a null datum has the label 0 and the distance NaN; if the first centroid is null every datum has the label 0, an iteration of k-means merges all the data in the first centroid and leaves the others; WeightedChoice with a NaN weight returns the index -1, so PPIter panics on data with a null vector, and PPInitializer panics whenever two centroids or more are asked for, whatever is drawn; streaming merges a null element in the first centre, and if it is the first or the second element received the maximal distance is NaN for ever and there is one cluster for ever; mcmc rejects every proposal while a null datum is in the data, panics when it proposes a number of clusters greater than that of the centroids for which no centres are stored, and if Init saw the null datum, accepts nothing until the next Init. A vector need not be null: in float64 a positive coordinate below 2^-537 has a norm which underflows to 0, its distance to 1 is -Inf, and with the centroids 1 and -1 it is assigned to -1.", "quantifier": "all formats, dimensions, data, centroids, configurations and draws; every k from 538 to 1074 for the coordinate 2^-k", "why_tests_cant": "Test vectors of the cosine space are not null; the NaN is not an error value and is consumed by comparisons, the panic needs k-means++ and the loss of the streaming clusters needs the null vector to come first or second.", "anchors": ["cosinus/cosinus.go:Cosinus", "cosinus/cosinus.go:PointDist", "cosinus/cosinus.go:Norm", "kmeans/init.go:WeightedChoice", "kmeans/init.go:PPIter", "kmeans/init.go:PPInitializer", "streaming/impl.go:Process", "streaming/impl.go:GetRelativeDistance", "mcmc/store.go:addCenter", "mcmc/impl.go:accept"]}
{"id": "C145", "title": "mcmc when the dimension of the Student distribution is not that of the data (claim examined: an iteration of mcmc on data of one dimension at worst fails with an error)", "statement": "Dim of the configuration of MultivT is compared to nothing. Pdf reads the coordinates of its arguments only, so on data of one dimension n Init returns the same whatever Dim. If Dim is greater than n every iteration after Init panics in the goroutine of the run, which reports it. If Dim is smaller than n no iteration returns, and every iteration which draws its centres ends the process: the sampled centres are shorter than the data, and the k-means iteration of the proposal is parallel with both strategies, so the panic happens in a goroutine where nothing recovers; with three non-negative weights, non-negative distances and draws in (0,1) this is the first iteration. If Dim is n nothing panics in the space or in the distribution and the iteration is that of the other properties. On elements which are not vectors (series) Init with MultivT does not return centroids.", "quantifier": "all dimensions, Dim, data, configurations, histories of pushes, initialisations and iterations, draws", "why_tests_cant": "A test which ends the process is not a failing test but no test report; Init with a wrong Dim succeeds, and whether the error is reported or the process ends depends on the sign of the difference.", "anchors": ["mcmc/multivt.go:NewMultivT", "mcmc/multivt.go:Sample", "mcmc/multivt.go:Pdf", "mcmc/impl.go:Init", "mcmc/impl.go:propose", "mcmc/impl.go:alter", "mcmc/impl.go:proba", "mcmc/seq.go:Iterate", "mcmc/store.go:addCenter", "core/util.go:Par"]}
{"id": "C146", "title": "ProbaK of any length and any values (claim examined: an accepted configuration of mcmc draws its moves with the given weights)", "statement": "NewAlgo accepts any non-empty ProbaK where it accepts some, and keeps it. With at most two weights the number of clusters proposed is never greater than the current one, so that after any history there are at most InitK centroids; with one weight, or weights whose sum is 0, every proposal has one cluster less, down to one. With non-negative weights, not all 0, and a draw in (0,1) an iteration panics exactly when the draw times the sum exceeds the sum of the first three weights, hence with a probability which is the part of the weights after the third. With a negative sum or a NaN weight every iteration panics.", "quantifier": "all weights, numbers of clusters, data and draws; all histories for the bound on the centroids", "why_tests_cant": "The default weights are three; a wrong length is not reported by Verify, two weights give a clustering which only shrinks and more than three an algorithm which fails now and then.", "anchors": ["mcmc/conf.go:Verify", "mcmc/conf.go:SetDefaultValues", "mcmc/impl.go:nextK", "kmeans/init.go:WeightedChoice"]}
{"id": "C147", "title": "The DTW distance, rounded", "statement": "With every operation rounded, the DTW distance that Space.Dist computes on series which it does not resize is within (1 \u00b1 u)^(|x|+|y|-2) times the square root of (1 \u00b1 u)^(n+5) of the least exact cost of a warping path in the window, up to an underflow term for each cell; in float64 the relative error is at most (|x|+|y|+n+3)\u00b72^-52. The path reported is a warping path of the window whose exact cost is, up to these errors, the least one. Without rounding the code computes that least cost. Reversing both series can change the float64 computed though not the exact distance.", "quantifier": "all series of vectors of any lengths and dimension, all windows, all roundings with the guarantees of IEEE-754 without overflow", "why_tests_cant": "Tests compare a few distances of short series of small integers, where nothing is rounded.", "anchors": ["dtw/series.go:Dist", "dtw/cost.go:computeCumCost", "dtw/dtw.go:NewDTWWindow", "euclid/vectors.go:PointDist"]}
{"id": "C148", "title": "Series with a NaN in the DTW space (claims examined: the distance of a series with a NaN is NaN, is symmetric, and its path stays in the window)", "statement": "Whatever the numbers and the comparisons, NewDTWWindow returns for all non-empty series whose lengths the window allows, its path goes from the last points to the first ones by single steps, and the average of the series is computed without panic. If a point of a series which is not resized gives NaN distances, the DTW distance is NaN or +Inf, never an ordinary number; it is NaN without window or with a window at least as long as the second series. With a shorter window it can be NaN one way and +Inf the other way, the path can leave the window, and a series which is resized can lose its NaN, the distance being then an ordinary number.", "quantifier": "all series, windows, point spaces and number types in which NaN compares with nothing and absorbs sums", "why_tests_cant": "NaN makes every comparison of min and decrPath false: which branch is then taken depends on the order of the tests and on the border of the window; no test of the repository has a NaN.", "anchors": ["dtw/cost.go:computeCumCost,min", "dtw/cost.go:computePath,decrPath", "dtw/dtw.go:NewDTWWindow,DBA", "dtw/series.go:Dist"]}
{"id": "C149", "title": "Streaming with elements of different sizes, and with series (claim examined: an element on which an iteration panics does no more harm than its loss)", "statement": "A call of Iterate which panics has taken the oldest element from the channel, and this element is lost; the centres, their counts and the number of elements are as before, and so is the largest distance unless it was zero. On vectors an iteration panics exactly when the element has more coordinates than a centre, or when it has fewer than its nearest centre and would be merged with it. The number of coordinates of a centre never changes, and an element with fewer coordinates which is not merged becomes a centre: from then on every iteration on an element with more coordinates panics, whatever is pushed, and nothing changes any more; so it is at once when the first element is such an element. On series of lengths from m to n with a window, or without window if n is at most 2m, no call panics.", "quantifier": "all spaces whose operations panic as those of the library do on vectors, all configurations, states, draws and sequences of calls; all DTW spaces for the series", "why_tests_cant": "No test of the repository pushes elements of different sizes to streaming; that one short element stops the algorithm for ever is a property of all the calls which follow.", "anchors": ["streaming/impl.go:Iterate,Process,UpdateCenter", "streaming/impl.go:GetRelativeDistance,AddCenter,AddOutlier", "core/clustering.go:Assign", "euclid/vectors.go:PointDist", "dtw/series.go:Dist"]}
{"id": "C150", "title": "k-means on vectors of different dimensions, from the initialisation on (claim examined: the panic depends on the data which come, so that a run may well go on)", "statement": "If two iterations of k-means in a row return, sequential or parallel, all the data have the same number of coordinates: on data of different dimensions the first iteration or the second one panics or ends the process, whatever the centroids it starts from. When an iteration returns, the new centroid of a cluster with elements has the dimension of its first element, which is the least. PPInitializer with two centroids or more ends the process if the first element drawn is not of the largest dimension, and when it returns, all its centroids but the last are of the largest dimension; with one centroid it computes no distance. GivenInitializer and RandInitializer do not look at the dimensions. On series for which the DTW operations do not panic PPInitializer does not end the process.", "quantifier": "all spaces whose operations panic as those of the library do on vectors, all data, centroids, strategies, degrees of parallelism and draws", "why_tests_cant": "No test of the repository gives vectors of different dimensions to k-means; that no choice of centroids, order or strategy saves the run is a statement on all of them.", "anchors": ["kmeans/init.go:PPInitializer", "kmeans/init.go:PPIter", "kmeans/init.go:GivenInitializer", "kmeans/seq.go:Iterate", "kmeans/par.go:Iterate", "core/par_dba.go:dbaCombine"]}
{"id": "C151", "title": "Infinite weights and weights whose sum overflows in the weighted choice (claims examined: k-means++ draws an element which is not a centroid yet; an accepted configuration of mcmc works)", "statement": "In float64 arithmetic (rounding, overflow, infinities, NaN): if some weights are infinite and none is negative or NaN, WeightedChoice returns the index of the first infinite weight whatever positive number is drawn; if the weights are finite but their sum overflows, it panics whatever positive number is drawn; if the sum is infinite and 0 is drawn, it returns -1. Hence PPIter draws the first element at an infinite distance from the centroids, without chance, and panics when the sum of the distances overflows. In the Euclidean space, if the data have a point with an infinite coordinate (and no NaN), PPInitializer returns, whatever positive numbers are drawn, the first point drawn followed by the same infinite point for all other centroids, if the first point drawn is finite; it panics if the first point drawn is infinite and two centroids or more are asked for. mcmc accepts finite weights ProbaK whose sum overflows, and then every iteration panics; an infinite last weight makes every proposal add a cluster, within the limits.", "quantifier": "all formats of floating point numbers, all weights, spaces, data, numbers of centroids and draws", "why_tests_cant": "The tests draw among small weights; that no draw at all reaches another element, or avoids the panic, is a statement on all draws.", "anchors": ["kmeans/init.go:WeightedChoice", "kmeans/init.go:PPIter", "kmeans/init.go:PPInitializer", "mcmc/impl.go:nextK", "mcmc/conf.go:Verify", "euclid/vectors.go:PointDist"]}
{"id": "C152", "title": "Negative distances in k-means++ and in mcmc (claims examined: on equal data k-means++ returns an error; mcmc works with every norm on finite data)", "statement": "With rounding the cosine distance of a vector to itself may be negative. If no element is at a positive distance of the centroids and one is at a negative distance, PPIter panics whatever is drawn, where ErrNullSet would be returned without rounding: in the cosine space PPInitializer panics on data which are all (2, 3) as soon as two centroids are asked for. A negative number to a power which is not an integer is NaN: with a Norm which is not an integer, the loss is NaN, sequential or parallel, when the last centroid is at a negative distance of a datum; if this is so of the initial centroids, mcmc accepts nothing until the next Init. In the cosine space and in float64 this is so if (2, 3) is among the data and is the last initial centroid.", "quantifier": "any rounding for k-means++, all formats of floating point numbers for mcmc, all spaces, data, norms, draws and histories; float64 for the witnesses", "why_tests_cant": "It takes the bits of a rounded square root to see a negative distance, and a norm which is not an integer to see its effect; the tests of mcmc use the norm 2.", "anchors": ["kmeans/init.go:WeightedChoice", "kmeans/init.go:PPIter", "kmeans/init.go:PPInitializer", "core/clustering.go:nearest", "core/clustering.go:TotalLoss", "mcmc/impl.go:Init", "mcmc/impl.go:accept", "cosinus/cosinus.go:PointDist"]}
{"id": "C153", "title": "Copy of a streaming algorithm which works (claim examined: the copy holds the centres the original had at some moment)", "statement": "Copy of a streaming algorithm takes no lock and sends the centres one after the other in the channel of the copy, from the array the iterations of the original write in. It panics exactly when there are more centres than BufferSize at the moment of the call, and never blocks. The copy waits for as many elements as there were centres; its j-th element is the j-th centre of the original at some moment during the copy, and these moments are in the order of the elements; until the array is replaced it is the centre of the very moment of the reading. The original does what it would have done alone. If the original only receives elements meanwhile the copy is the one of C71; if at most one Init or Iterate takes place it holds the centres of one moment. With two iterations it need not: the copy may wait for 10 and 42 though the original had 10, 40 then 11, 40 then 11, 42.", "quantifier": "all spaces, states, histories of calls and interleavings with the readings, capacities chosen by append; no laws of arithmetic", "why_tests_cant": "It depends on iterations falling between two readings of a loop of a few instructions.", "anchors": ["streaming/impl.go:Copy", "streaming/impl.go:NewImpl", "streaming/algo.go:NewAlgo", "streaming/impl.go:UpdateCenter", "streaming/impl.go:AddCenter", "streaming/impl.go:AddOutlier", "core/ctrl.go:Copy"]}
{"id": "C154", "title": "Elements of a type the space does not expect (claim examined: a wrong element is refused)", "statement": "An Elemt is any value and Push checks nothing: the spaces assert the type, and every operation panics on a wrong element. On elements of the right type all that is known of a space holds. With one element of a wrong type among the data, an iteration of k-means panics if it is sequential and ends the process if it is parallel, from any centroids; Init of mcmc returns no clustering and no iteration of mcmc returns. GivenInitializer panics if one of the first k elements is wrong and does not look at the others; RandInitializer panics if the first element it draws is wrong, and never returns a wrong one; PPInitializer ends the process whatever is drawn when k is at least 2, and returns the wrong element when k is 1 and it is drawn. Predict of a wrong element panics in the client as soon as there is a centroid. Streaming only loses a wrong element, with a panic, but if it is the first one Init returns it as a clustering and every iteration which takes an element panics for ever.", "quantifier": "all spaces, data, centroids, draws, degrees of parallelism and histories of streaming; no laws of arithmetic", "why_tests_cant": "The tests push elements of the right type; a wrong one ends the process only in the parallel strategies.", "anchors": ["core/space.go:Elemt", "core/clustering.go:Assign", "core/clustering.go:ReduceDBA", "core/util.go:Par", "kmeans/init.go:GivenInitializer", "kmeans/init.go:RandInitializer", "kmeans/init.go:PPInitializer", "mcmc/impl.go:Init", "mcmc/impl.go:Iterate", "streaming/impl.go:Init", "streaming/impl.go:Process", "euclid/vectors.go:Dist", "cosinus/cosinus.go:Dist", "dtw/series.go:getSeries"]}
{"id": "C155", "title": "Waiting for a condition, and an implementation without results (claims examined: Wait returns when the algorithm is over; Batch returns with a limit on the iterations)", "statement": "Wait(finishing, 0) with a condition of the user polls this condition alone. If the other goroutines are over and the condition is false, then whatever happens, as long as no other client comes, Wait never returns: so with NewIterFinishing(10, 0) when the first iteration fails, and when the Timeout of the configuration interrupts the algorithm, the status being Finished with an error. If the condition is true the next poll is the last one and Wait returns the error of the status; NewOrFinishing of the condition and NewStatusFinishing(true, Ready, Idle, Finished) is true as soon as the algorithm is over, NewAndFinishing of them is false whenever the condition is. An implementation whose methods return nothing, like the skeleton of package template, never counts an iteration and never shows centroids, whatever the clients do; with Iter > 0 its run never finds its limit, and a client alone which plays with a positive limit never sees the end of the run: Batch never returns.", "quantifier": "all finishing conditions (nested, nil, or any function of the status and the figures), all states of the controller where the rest is over and all continuations; all executions of the skeleton with any clients", "why_tests_cant": "The negative parts are about every continuation of any length; a test can only time out.", "anchors": ["core/timeout.go:WaitTimeout", "core/ctrl.go:Wait", "core/finish.go:IterFinishing", "template/impl.go:Iterate", "core/ctrl.go:Batch"]}
{"id": "C156", "title": "A time-out which wakes up when the run is over (claims examined: a run which reaches its limit in time is not interrupted; Wait returns an error only if the run was interrupted)", "statement": "With Timeout in the configuration, the end of the run does not disable the time-out of Play. When it wakes up (and no later Play has disabled it) a Ready algorithm becomes Finished with ErrTimeout, iterations and centroids unchanged; a running or idle one is sent this status; otherwise ErrNotAlive and nothing changes. So after two iterations out of two, and after Wait has returned nil, the status may become Finished with ErrTimeout; the next Play then initialises again: the iterations are forgotten and the centroids replaced. If the time-out wakes up between the last poll of Wait and the moment Wait reads the error, Wait returns ErrTimeout though the run was over, Ready and complete. Conversely, in every execution, whatever the clients do, the error of the status is the panic of a send on a closed channel, or ErrTimeout when a time-out has fired, or an error returned by Init or Iterate, or a panic of Iterate; a time-out fires only if the configuration has one.", "quantifier": "all reachable states of the controller, with any clients, for the origin of errors and the effect of the time-out; executions of an algorithm with Iter = 2 and a time-out for the refutations", "why_tests_cant": "It needs a time-out which expires after the end of the run, at a precise point between two statements of Wait.", "anchors": ["core/timeout.go:InterruptionTimeout", "core/ctrl.go:interrupt", "core/ctrl.go:Wait", "core/ctrl.go:Play", "core/timeout.go:WaitTimeout"]}
{"id": "C157", "title": "Where the errors returned by the calls come from (claim examined: with an implementation which never fails and no time-out the status has no error)", "statement": "In every execution, whatever the clients do, an error returned by Init, Play, Pause, Stop or Wait is a documented error of this very call (ErrAlreadyCreated for Init; ErrRunning for Play; ErrNotRunning for Pause; ErrNotAlive for Stop; ErrIdle, ErrNotRunning, ErrNeverFinish without condition and duration, ErrTimeout with a duration for Wait), or has been caused before the return: by the panic of a run which sends on an acknowledgement channel already closed, by a time-out of the configuration which has fired, by an error of Init or Iterate of the implementation, or by a panic of Iterate. So without a time-out in the configuration and with an implementation without fault, the only other error, in the status or returned, is this panic. It does happen: one client alone calls Batch, then Play and Stop, these two returning nil, and the algorithm is Finished with the panic of its own run as error.", "quantifier": "all reachable states of the controller, any number of clients, all calls; one execution with one client for the refutation", "why_tests_cant": "It is about the origin of every error in every interleaving; the panic needs the end of a run to overlap the next Play.", "anchors": ["core/ctrl.go:interrupt", "core/ctrl.go:Wait", "core/ctrl.go:Play", "core/ctrl.go:recover", "core/algo.go:receiveStatus", "core/error.go:ErrNeverFinish"]}
