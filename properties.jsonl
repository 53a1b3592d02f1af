{"id": "C01", "title": "VecMean is the arithmetic mean", "statement": "mathutils.VecMean on a generator that yields n>=1 vectors all of the same length and then stops returns (m,true) where m has that length and, in exact arithmetic, m[j] is the sum of the j-th components divided by n. If the generator yields nothing, or yields a vector whose length differs from the first one, the boolean is false.", "quantifier": "every finite sequence of vectors of every dimension", "why_tests_cant": "unbounded sequence lengths, dimensions and values", "anchors": ["pkg/mathutils/vectools.go:VecMean"]}
{"id": "C02", "title": "EuclideanDistance is a metric and rejects mismatched lengths", "statement": "mathutils.EuclideanDistance fails exactly when the two vectors differ in length; otherwise, in exact arithmetic, the result is non-negative, symmetric, zero exactly for equal vectors and satisfies the triangle inequality.", "quantifier": "every pair/triple of vectors of every dimension", "why_tests_cant": "infinite input space", "anchors": ["pkg/mathutils/distance.go:EuclideanDistance"]}
{"id": "C03", "title": "EuclideanDistance returns the Euclidean distance", "statement": "For equal-length vectors the value returned by mathutils.EuclideanDistance is the square root of the sum of squared component differences.", "quantifier": "every pair of equal-length vectors", "why_tests_cant": "infinite input space; the identity happens to hold on one-dimensional and axis-aligned samples", "anchors": ["pkg/mathutils/distance.go:EuclideanDistance"]}
{"id": "C04", "title": "CosineSimilarity is a bounded, symmetric, scale-invariant similarity", "statement": "mathutils.CosineSimilarity fails exactly on a length mismatch; for two non-zero vectors, in exact arithmetic, it lies in [-1,1], is symmetric in its arguments, equals 1 on (v,v) and is unchanged when either vector is scaled by a positive number; for two zero vectors it is 0.", "quantifier": "every pair of vectors and every positive scale", "why_tests_cant": "infinite input space", "anchors": ["pkg/mathutils/distance.go:CosineSimilarity", "pkg/mathutils/distance.go:norm"]}
{"id": "C05", "title": "CosineSimilarity never returns NaN on finite vectors", "statement": "On finite float64 vectors of equal length CosineSimilarity returns a number, never NaN, including when one or both of them is the zero vector.", "quantifier": "every pair of equal-length finite float64 vectors", "why_tests_cant": "needs all float64 inputs including the zero-vector corner", "anchors": ["pkg/mathutils/distance.go:CosineSimilarity"]}
{"id": "C06", "title": "A KNN search returns exactly min(k, number of comparable candidates) distinct valid indexes", "statement": "For every target, pool, distance function and k>=0, KNNBrute (hence KNNCos, KFNCos, KNNEuc, KFNEuc) returns a list of distinct indexes into the pool whose length is min(k, number of pool vectors for which the distance function succeeded and whose score is strictly better than the worst representable score).", "quantifier": "every target vector, every pool (any length), every distance function, every k>=0, both orders, every float64 score including NaN and infinities", "why_tests_cant": "unbounded pools and arbitrary scores and ties", "anchors": ["pkg/searchutils/knn.go:KNNBrute", "pkg/searchutils/knn.go:bubble", "pkg/searchutils/knn.go:resItems2Indexes"]}
{"id": "C07", "title": "A KNN search returns the k best, best first", "statement": "The indexes returned by KNNBrute are ordered from best score to worst score, and no comparable pool vector that was left out has a strictly better score than one that was returned.", "quantifier": "every target, pool, distance function, k, order", "why_tests_cant": "optimality compares with every subset of an unbounded pool", "anchors": ["pkg/searchutils/knn.go:KNNBrute", "pkg/searchutils/knn.go:bubble"]}
{"id": "C08", "title": "Incomparable candidates never influence a KNN search", "statement": "Pool entries whose score is NaN, or for which the distance function returns an error, are never returned and do not change which other entries are returned: the result is the result on the pool without them, re-indexed.", "quantifier": "every pool with any number of NaN-scored or erroring entries at any positions", "why_tests_cant": "positions and number of bad entries are unbounded", "anchors": ["pkg/searchutils/knn.go:KNNBrute"]}
{"id": "C09", "title": "KNN results do not depend on pool order, up to ties", "statement": "Presenting the same pool in another order to KNNBrute yields a result with exactly the same list of scores.", "quantifier": "every pool and every permutation of it", "why_tests_cant": "factorially many permutations", "anchors": ["pkg/searchutils/knn.go:KNNBrute"]}
{"id": "C10", "title": "A KNN search panics exactly on negative k", "statement": "KNNBrute with k>=0 always returns normally; with k<0 it panics (makeslice).", "quantifier": "every pool, target and k", "why_tests_cant": "must cover every input", "anchors": ["pkg/searchutils/knn.go:KNNBrute"]}
{"id": "C11", "title": "Centroid.AddDataPoint accepts exactly live datapoints of the right dimension", "statement": "Centroid.AddDataPoint(dp) returns true exactly when dp's vector has the centroid's dimension and dp is not expired; then the stored datapoints are the old ones plus dp; otherwise nothing changes.", "quantifier": "every centroid state, datapoint and clock", "why_tests_cant": "all states and clock readings", "anchors": ["pkg/kmeans/centroid/centroid.go:AddDataPoint", "pkg/kmeans/common/datapoint.go:Expired"]}
{"id": "C12", "title": "A centroid's vector is the mean of its datapoints", "statement": "In exact arithmetic, after every history of AddDataPoint, DrainUnordered, DrainOrdered, Expire, KNNLookup and MoveVector on a fresh centroid, while it holds at least one datapoint Vec() is the arithmetic mean of the vectors of the datapoints it holds.", "quantifier": "every operation history, every clock behaviour", "why_tests_cant": "unbounded histories; incremental update errors accumulate", "anchors": ["pkg/kmeans/centroid/centroid.go:addDataPoint", "pkg/kmeans/centroid/centroid.go:rmDataPoint", "pkg/kmeans/centroid/centroid.go:MoveVector"]}
{"id": "C13", "title": "Centroid.MemTrim keeps the centroid intact", "statement": "MemTrim removes exactly the expired datapoints, keeps the others in the same order, and Vec() is afterwards the mean of the datapoints held (the comment in MemTrim promises the vector is adjusted).", "quantifier": "every centroid state and clock", "why_tests_cant": "all states; the vector error depends on the order of the stored points", "anchors": ["pkg/kmeans/centroid/centroid.go:MemTrim"]}
{"id": "C14", "title": "Centroid.DrainUnordered returns min(n, live) live datapoints and removes exactly those and expired ones", "statement": "DrainUnordered(n), n>=0, returns the first n live datapoints in storage order (all of them if fewer), never an expired one, and afterwards the centroid holds the remaining ones: nothing live is lost and nothing is duplicated.", "quantifier": "every state, n and clock", "why_tests_cant": "all states, expiry patterns and clock advances during the call", "anchors": ["pkg/kmeans/centroid/centroid.go:DrainUnordered"]}
{"id": "C15", "title": "Centroid.DrainOrdered removes the n furthest datapoints", "statement": "DrainOrdered(n), n>=0, returns at most n datapoints, live at the start of the call, chosen by the furthest-neighbour search relative to the centroid vector; exactly these (and expired ones) are removed; nothing else is lost or duplicated. With KFNCos/KFNEuc no datapoint left behind is strictly further away than a returned one.", "quantifier": "every state, n, clock, and every search function honouring its contract", "why_tests_cant": "all states and tie/expiry patterns", "anchors": ["pkg/kmeans/centroid/centroid.go:DrainOrdered", "pkg/kmeans/centroid/centroid.go:dataPointVecGenerator"]}
{"id": "C16", "title": "Centroid.Expire removes exactly the expired datapoints", "statement": "After Expire, the centroid holds in the same order every datapoint that is still live when the call returns and none that was already expired when it was called.", "quantifier": "every state and clock", "why_tests_cant": "all expiry patterns, consecutive expired entries, clock advances", "anchors": ["pkg/kmeans/centroid/centroid.go:Expire", "pkg/kmeans/centroid/centroid.go:rmDataPoint"]}
{"id": "C17", "title": "Centroid.KNNLookup returns the k best live datapoints and drains exactly what it returns", "statement": "KNNLookup(vec,k,drain), k>=0, returns at most k distinct stored datapoints, live at the start of the call, best first, none left behind being strictly better; with drain=true exactly those are removed, with drain=false every live datapoint stays.", "quantifier": "every state, query, k, drain flag, clock", "why_tests_cant": "all states, ties and expiry patterns", "anchors": ["pkg/kmeans/centroid/centroid.go:KNNLookup"]}
{"id": "C18", "title": "Centroid.DistributeDataPoints never loses or duplicates a live datapoint", "statement": "DistributeDataPoints(n, receivers) moves at most n datapoints between the centroid and the receivers: afterwards the datapoints held by the centroid and all receivers together are the same as before, minus only datapoints that have expired, for every list of receivers, including the centroid itself, repeated receivers and receivers of other dimensions.", "quantifier": "every heap of centroids, every receiver list (aliasing allowed), n>=0, clock", "why_tests_cant": "aliasing, rejections and expiry during the move", "anchors": ["pkg/kmeans/centroid/centroid.go:DistributeDataPoints"]}
{"id": "C19", "title": "Dimensions stay consistent", "statement": "In a centroid or a centroid manager built through the API, after any history of operations every stored datapoint has the dimension of the centroid that holds it, and all centroids of one manager have the same dimension.", "quantifier": "every operation history", "why_tests_cant": "unbounded histories", "anchors": ["pkg/kmeans/centroid/centroid.go:AddDataPoint", "pkg/kmeans/centroidmanager/cmanager.go:AddDataPoint"]}
{"id": "C20", "title": "CentroidManager.AddDataPoint stores exactly when it says so", "statement": "CentroidManager.AddDataPoint(dp) returning true means dp is stored (exactly one more copy) and nothing else is lost except expired datapoints; returning false means the stored data is unchanged. An expired dp is always refused; on an empty manager a live dp is always accepted.", "quantifier": "every manager state, datapoint, clock", "why_tests_cant": "all states, including the auto-split path", "anchors": ["pkg/kmeans/centroidmanager/cmanager.go:AddDataPoint", "pkg/kmeans/centroidmanager/cmanager.go:splitCentroid"]}
{"id": "C21", "title": "A manager is a bag of live datapoints", "statement": "Under every history of AddDataPoint, DrainUnordered, DrainOrdered, Expire, MemTrim, MoveVector, DistributeDataPointsInternal, KNNLookup, NearestCentroids, SplitCentroids and MergeCentroids (with non-negative counts), the accepted datapoints are exactly those still stored, those handed out by draining operations, and expired ones: nothing live is lost, nothing is duplicated or invented.", "quantifier": "every operation history of any length, every map-iteration order, every clock", "why_tests_cant": "unbounded histories, Go map order, clock advances", "anchors": ["pkg/kmeans/centroidmanager/cmanager.go"]}
{"id": "C22", "title": "Manager operations never panic on non-negative counts", "statement": "No history of CentroidManager operations with non-negative counts panics (no index out of range, nil dereference or negative allocation), with the library's own search functions.", "quantifier": "every operation history, map order and clock", "why_tests_cant": "unbounded histories", "anchors": ["pkg/kmeans/centroidmanager/cmanager.go", "pkg/kmeans/centroid/centroid.go"]}
{"id": "C23", "title": "Manager.Vec is the mean of its centroids' vectors", "statement": "In exact arithmetic, CentroidManager.Vec() is the mean of its centroids' vectors after every operation documented to update it (AddDataPoint, DrainUnordered, DrainOrdered, Expire, MemTrim, KNNLookup, NearestCentroids with drain, MergeCentroids).", "quantifier": "every history of those operations", "why_tests_cant": "unbounded histories; the failing cases need specific shapes (auto-split, merge of multi-point centroids, trim)", "anchors": ["pkg/kmeans/centroidmanager/cmanager.go:prepVecUpdate", "pkg/kmeans/centroidmanager/cmanager.go:AddDataPoint", "pkg/kmeans/centroidmanager/cmanager.go:MemTrim", "pkg/kmeans/centroidmanager/cmanager.go:MergeCentroids", "pkg/kmeans/centroidmanager/cmanager.go:NearestCentroids"]}
{"id": "C24", "title": "MoveVector repairs every vector", "statement": "After MoveVector returns true, in exact arithmetic Vec() is the mean of the centroid vectors and the vector of every non-empty centroid is the mean of its datapoints, whatever state it started from.", "quantifier": "every dimension-consistent manager state", "why_tests_cant": "must hold from arbitrary (drifted) states", "anchors": ["pkg/kmeans/centroidmanager/cmanager.go:MoveVector", "pkg/kmeans/centroid/centroid.go:MoveVector", "pkg/mathutils/vectools.go:VecMean"]}
{"id": "C25", "title": "Draining a manager takes at most n datapoints", "statement": "CentroidManager.DrainUnordered(n)/DrainOrdered(n) return at most n datapoints; with nothing expired DrainUnordered returns exactly min(n, LenDP()).", "quantifier": "every state, n>=0, map order", "why_tests_cant": "all states and n including 0", "anchors": ["pkg/kmeans/centroidmanager/cmanager.go:DrainUnordered", "pkg/kmeans/centroidmanager/cmanager.go:DrainOrdered", "pkg/kmeans/centroidmanager/cmanager.go:centroidDataPointPortions"]}
{"id": "C26", "title": "Draining load is spread evenly over centroids", "statement": "The per-centroid share of a drain of n datapoints never exceeds the centroid's size, the shares sum to min(n, LenDP()) for n>=1, and a centroid's share is smaller than another's by 2 or more only if it has been emptied.", "quantifier": "every list of centroid sizes and n>=1", "why_tests_cant": "unbounded numbers of centroids", "anchors": ["pkg/kmeans/centroidmanager/cmanager.go:centroidDataPointPortions"]}
{"id": "C27", "title": "Splitting preserves data and halves centroids", "statement": "SplitCentroids(pred) keeps all live datapoints; with nothing expired each selected centroid of size s>=2 becomes two of sizes ceil(s/2) and floor(s/2), others are untouched.", "quantifier": "every state and predicate", "why_tests_cant": "all states and predicates", "anchors": ["pkg/kmeans/centroidmanager/cmanager.go:SplitCentroids", "pkg/kmeans/centroidmanager/cmanager.go:splitCentroid"]}
{"id": "C28", "title": "Auto-split bounds centroid size", "statement": "With CentroidDPThreshold t>=2, after any history of AddDataPoint, drains, Expire, MemTrim, KNNLookup, NearestCentroids and SplitCentroids every centroid holds fewer than t datapoints; with t<=1 AddDataPoint never splits.", "quantifier": "every history and threshold", "why_tests_cant": "unbounded histories", "anchors": ["pkg/kmeans/centroidmanager/cmanager.go:AddDataPoint", "pkg/kmeans/centroidmanager/cmanager.go:splitCentroid"]}
{"id": "C29", "title": "Merging preserves data, keeps at least one centroid and meets its goal", "statement": "MergeCentroids(pred) keeps all live datapoints; a non-empty manager keeps at least one centroid; with an always-true predicate and comparable centroids exactly one remains; with predicate 'fewer than m datapoints' and comparable centroids afterwards either one centroid remains or all have at least m.", "quantifier": "every state, predicate (as arbitrary function of the centroid), m", "why_tests_cant": "all states, all predicates, all nearest-first orders", "anchors": ["pkg/kmeans/centroidmanager/cmanager.go:MergeCentroids"]}
{"id": "C30", "title": "Internal redistribution never loses data", "statement": "DistributeDataPointsInternal(n) leaves the manager with the same datapoints, minus only expired ones, for every iteration order of the portion map.", "quantifier": "every state, n, map order, clock", "why_tests_cant": "Go map order and self-receiving aliasing", "anchors": ["pkg/kmeans/centroidmanager/cmanager.go:DistributeDataPointsInternal", "pkg/kmeans/centroidmanager/cmanager.go:DistributeDataPoints"]}
{"id": "C31", "title": "Manager.KNNLookup returns at most k, drains exactly the result, otherwise reads only", "statement": "KNNLookup(vec,k,drain) returns at most k datapoints all stored and live at call start; drain=true removes exactly those; drain=false leaves every live datapoint stored.", "quantifier": "every state, query, k>=0, clock", "why_tests_cant": "all states", "anchors": ["pkg/kmeans/centroidmanager/cmanager.go:KNNLookup"]}
{"id": "C32", "title": "Manager.KNNLookup finds k datapoints when k are stored", "statement": "KNNLookup(vec,k,_) returns min(k, number of stored live datapoints of comparable vectors).", "quantifier": "every state, query, k", "why_tests_cant": "needs states where a nearest centroid is empty", "anchors": ["pkg/kmeans/centroidmanager/cmanager.go:KNNLookup"]}
{"id": "C33", "title": "NearestCentroids with drain removes exactly the returned centroids and leaves a sane vector", "statement": "NearestCentroids(vec,n,true) moves at most n centroids out of the manager, none lost or copied, and the remaining Vec() is the mean of the remaining centroids (no NaN on finite data).", "quantifier": "every state, query, n", "why_tests_cant": "includes draining the last centroid", "anchors": ["pkg/kmeans/centroidmanager/cmanager.go:NearestCentroids"]}
{"id": "C34", "title": "Namespaces are isolated and missing ones are reported", "statement": "A server operation on one namespace never changes another namespace; on a namespace that does not exist every operation except AddDataPoint and StealCentroid returns NamespaceErr and changes nothing; AddDataPoint creates it.", "quantifier": "every server state, operation and namespace", "why_tests_cant": "all pairs of namespaces and operations", "anchors": ["pkg/kmeans/rpc/server.go:handleNamespaceErr", "pkg/kmeans/rpc/rpc.go:Access"]}
{"id": "C35", "title": "An acknowledged AddDataPoint is stored", "statement": "If KMeansServer.AddDataPoint answers true then the datapoint is stored in that namespace.", "quantifier": "every server state and datapoint", "why_tests_cant": "all states; the failing ones need refusal by the manager", "anchors": ["pkg/kmeans/rpc/server.go:AddDataPoint"]}
{"id": "C36", "title": "Cross-node distribution neither loses nor duplicates datapoints", "statement": "DistributeDataPointsFast/Accurate move datapoints between nodes so that all nodes together keep the same live datapoints.", "quantifier": "every network state, arrival order of replies, set of reachable nodes, failure point", "why_tests_cant": "reply orders, failures between execution and reply, refusals", "anchors": ["pkg/kmeans/rpc/server.go:DistributeDataPointsFast", "pkg/kmeans/rpc/server.go:DistributeDataPointsAccurate", "pkg/kmeans/rpc/server.go:distributeDP"]}
{"id": "C37", "title": "Stealing centroids conserves data and reports the amount moved", "statement": "StealCentroid moves whole centroids from the remote to the local node: without lost replies the two nodes together keep the same live datapoints, TransferredN is the number of datapoints gained by the local node, and it stops at the first moment TransferredN reaches the limit or the remote has nothing more to give.", "quantifier": "every pair of node states, limits, clock", "why_tests_cant": "all states, overshoot, expiry during transfer", "anchors": ["pkg/kmeans/rpc/server.go:StealCentroid", "pkg/kmeans/rpc/client.go:NearestCentroids"]}
{"id": "C38", "title": "StealCentroid's answer means what its documentation says", "statement": "TransferredN=0 with OK=true means the remote holds no datapoints for the namespace (documented 'no network err but remote is empty').", "quantifier": "every pair of node states", "why_tests_cant": "needs an empty centroid nearest to the thief", "anchors": ["pkg/kmeans/rpc/server.go:StealCentroid", "pkg/kmeans/rpc/client.go:NearestCentroids"]}
{"id": "C39", "title": "Client NearestCentroids returns only usable centroids and never panics", "statement": "kmeansClient.NearestCentroids filters out empty centroids and re-initialises the others, for every server answer.", "quantifier": "every list of centroids returned by the server", "why_tests_cant": "needs two adjacent empty centroids in the answer", "anchors": ["pkg/kmeans/rpc/client.go:NearestCentroids"]}
{"id": "C40", "title": "Namespaces and Meta report the truth", "statement": "Namespaces lists every namespace once; Meta maps each namespace to its number of centroids and its number of stored datapoints.", "quantifier": "every server state and map order", "why_tests_cant": "all states", "anchors": ["pkg/kmeans/rpc/server.go:Meta", "pkg/kmeans/rpc/server.go:Namespaces"]}
{"id": "C41", "title": "Concurrent requests on an existing namespace are linearizable", "statement": "For any interleaving of concurrent operations on existing namespaces the final state and all answers equal those of running them one at a time in some order consistent with their lock acquisition; no acknowledged operation is lost.", "quantifier": "every number of clients, every interleaving", "why_tests_cant": "schedules", "anchors": ["pkg/kmeans/rpc/rpc.go:CManagerTable.Access", "pkg/kmeans/rpc/rpc.go:CManagerSlot.Access"]}
{"id": "C42", "title": "Concurrent first inserts into a new namespace are all kept", "statement": "If several clients concurrently insert into a namespace that does not exist yet, all acknowledged datapoints are stored.", "quantifier": "every interleaving", "why_tests_cant": "needs the racy schedule between lookup and slot creation", "anchors": ["pkg/kmeans/rpc/server.go:AddDataPoint", "pkg/kmeans/rpc/rpc.go:AddSlot"]}
{"id": "C43", "title": "The server never deadlocks", "statement": "No interleaving of server operations reaches a state where some operation waits forever for a lock: no operation holds the table lock or a slot lock while waiting for another lock.", "quantifier": "every set of operations and interleaving", "why_tests_cant": "schedules", "anchors": ["pkg/kmeans/rpc/rpc.go", "pkg/kmeans/rpc/server.go"]}
{"id": "C44", "title": "Best-fit node selection is correct for every arrival order", "statement": "BestFitNodesFast/Accurate return exactly the addresses that answered with a comparable vector, each once per occurrence, most similar first, whatever order the replies arrive in.", "quantifier": "every address list, reply set and goroutine schedule", "why_tests_cant": "schedules", "anchors": ["core/nodes/nodes.go:bestFitNodes", "core/nodes/vecs.go:fetchVecs", "core/nodes/vecs.go:collect"]}
{"id": "C45", "title": "A query returns at most n datapoints and drains exactly what it returns", "statement": "GetDataPointsFast/Accurate/Rand return at most n datapoints; with drain=true exactly the returned datapoints leave the network; with drain=false no live datapoint does.", "quantifier": "every network state, n>=0, node order", "why_tests_cant": "all network states", "anchors": ["core/dps/getdps.go"]}
{"id": "C46", "title": "A put stores on at most one node", "statement": "PutDataPoint* tries nodes in order and stops at the first acknowledgement: without lost replies at most one node's data changes, and false means no node acknowledged.", "quantifier": "every network state and node order", "why_tests_cant": "all network states", "anchors": ["core/dps/putdps.go"]}
{"id": "C47", "title": "shuffleAddrs is a permutation", "statement": "Random placement considers every address exactly as often as listed, for every sequence of random numbers, without altering the caller's list.", "quantifier": "every address list and random sequence", "why_tests_cant": "all random sequences", "anchors": ["core/dps/dps.go:shuffleAddrs"]}
{"id": "C48", "title": "HTTP put: 200 means stored", "statement": "If POST /api/dp/put answers 200 the datapoint is stored in the network; a body that is not valid JSON is answered 400 and changes nothing.", "quantifier": "every request body and network state", "why_tests_cant": "all network states", "anchors": ["core/api/handler.go:putDataPoint"]}
{"id": "C49", "title": "API conversion is lossless", "statement": "Converting a datapoint between the JSON-facing type and the internal type preserves vector, payload and expiry, for lists in order and length.", "quantifier": "every datapoint and list", "why_tests_cant": "all values", "anchors": ["core/api/conv.go"]}
{"id": "C50", "title": "Event-loop tasks run on schedule", "statement": "A task with skip interval s runs in loop iteration L (counting from 0) exactly when the tick (L mod 1001) is divisible by s: s=1 runs each loop, s=2 every second one within a tick cycle.", "quantifier": "every interval and iteration number", "why_tests_cant": "unbounded time", "anchors": ["core/eventloop/el.go:EventLoop", "core/eventloop/eltask.go:withSkip"]}
{"id": "C51", "title": "Validation makes every skip interval safe", "statement": "After EventLoop validates its configuration no task can crash the process by a modulus with zero, for every configuration.", "quantifier": "every configuration", "why_tests_cant": "all configurations, needs the unclamped field", "anchors": ["core/eventloop/cfg.go:clamp", "core/eventloop/cfg.go:validate", "core/eventloop/eltask.go:withSkip"]}
{"id": "C52", "title": "Intervals above 1000 disable a task", "statement": "A task whose skip interval is configured above 1000 is never run (documented 'Values over 1000 will never be ran').", "quantifier": "every configuration with a value above 1000", "why_tests_cant": "unbounded time", "anchors": ["core/eventloop/cfg.go:EventLoopTaskSkipConfig"]}
{"id": "C53", "title": "Stopping the event loop stops it promptly", "statement": "After the stop function is called, at any moment, at most one more task (the one already past its checks) executes and the loop terminates.", "quantifier": "every moment at which stop is called", "why_tests_cant": "all interleavings", "anchors": ["core/eventloop/el.go"]}
{"id": "C54", "title": "Namespace grouping is exact", "statement": "The event loop's namespace table lists for every namespace exactly the addresses that reported it, in order, and has no other namespaces.", "quantifier": "every set of replies", "why_tests_cant": "unbounded replies", "anchors": ["core/eventloop/eltaskutils.go:addrNamespaceTable", "core/eventloop/eltask.go:withNamespaceTable"]}
{"id": "C55", "title": "Load balancing only pulls towards an under-filled local node", "statement": "The load balancer never divides by zero, never steals from itself, only steals when the local node is at or below mean minus margin, requests a positive amount not exceeding a third of the deficit, and only from a node that would stay at or above mean plus margin (or the only holder).", "quantifier": "every table of node sizes, map order and steal outcome", "why_tests_cant": "all size tables and orders", "anchors": ["core/eventloop/eltask.go:eltLoadBalancing", "core/eventloop/eltaskutils.go:fetchRemoteLenDPs"]}
{"id": "C56", "title": "Arbiter map helpers are exact", "statement": "ArbErrs.CheckAll returns a nil error exactly when all errors are nil and otherwise some entry of the map with its address; ArbStats.UniformStatus is true exactly when all codes equal the given one; for every map order.", "quantifier": "every map and iteration order", "why_tests_cant": "map order", "anchors": ["pkg/arbiter/arbiter.go:CheckAll", "pkg/arbiter/arbiter.go:UniformStatus"]}
{"id": "C57", "title": "Vector helpers are exact and total", "statement": "VecAdd/VecSub succeed exactly on equal lengths and work componentwise; VecMulScalar/VecDivScalar keep the length; VecEq is true exactly for equal length and pairwise equal (==) components; VecIn exactly when some element is VecEq.", "quantifier": "every vector", "why_tests_cant": "infinite inputs", "anchors": ["pkg/mathutils/vectools.go"]}
{"id": "C58", "title": "Expired data is never handed out", "statement": "No draining or lookup operation of a centroid or manager returns a datapoint that was already expired when the operation was called.", "quantifier": "every state, operation and monotone clock", "why_tests_cant": "all expiry patterns and clock advances", "anchors": ["pkg/kmeans/centroid/centroid.go", "pkg/kmeans/centroidmanager/cmanager.go"]}
{"id": "C59", "title": "Server methods do what the manager does", "statement": "Every RPC method about one centroid manager, on an existing namespace, changes exactly that manager the way the corresponding CentroidManager method does, answers what that method answers, and panics exactly when it panics.", "quantifier": "every method, argument, world of nodes and namespaces, and clock", "why_tests_cant": "all methods and states", "anchors": ["pkg/kmeans/rpc/server.go"]}
{"id": "C60", "title": "The whole service conserves datapoints", "statement": "Whatever RPC requests, HTTP puts and queries, event loops (all nine tasks) and goroutines started by them run concurrently at any number of nodes: when all are done, the datapoints of every namespace at all nodes together are those before plus those put, minus those handed out or rejected, minus expired ones.", "quantifier": "every set of jobs, configuration, interleaving, map order, random choice and network behaviour", "why_tests_cant": "all interleavings of all components", "anchors": ["core/eventloop/el.go", "core/eventloop/eltask.go", "core/api/handler.go", "pkg/kmeans/rpc/server.go", "cmd/service/service.go"]}
{"id": "C61", "title": "The service never panics", "statement": "RPC requests, HTTP requests, event loops and the goroutines started by them never panic in any interleaving and with any network failures, provided counts are not negative and skip intervals are not 0; datapoints may have any dimension and the clock may jump. The tables of all nodes stay consistent and no namespace disappears.", "quantifier": "every set of jobs, datapoints, clock, configuration, interleaving and network behaviour", "why_tests_cant": "all interleavings and configurations", "anchors": ["core/eventloop/el.go", "core/eventloop/eltask.go", "core/api/handler.go", "pkg/kmeans/rpc/server.go"]}
{"id": "C62", "title": "Maintenance tasks start one call per local namespace", "statement": "The Expire, MemTrim, DistributeDataPointsInternal, SplitCentroids and MergeCentroids tasks start exactly one goroutine with the configured arguments for every namespace of the local node and none for other namespaces; none if the local node does not answer.", "quantifier": "every world, configuration and map order", "why_tests_cant": "unbounded namespaces", "anchors": ["core/eventloop/eltask.go:withLocalAddrNamespaces", "core/eventloop/eltask.go:eltExpire", "core/eventloop/eltask.go:eltSplitCentroids"]}
{"id": "C63", "title": "The Meta task logs exactly what the nodes hold", "statement": "The Meta task passes to LogMeta, for the local node or for every remote address in order, exactly the namespaces of that node with the numbers of their centroids and datapoints, or nothing if it does not answer, and changes nothing.", "quantifier": "every world, configuration and network behaviour", "why_tests_cant": "unbounded nodes and namespaces", "anchors": ["core/eventloop/eltask.go:eltMeta", "pkg/kmeans/rpc/server.go:Meta"]}
{"id": "C64", "title": "Every loop ends", "statement": "Every loop whose number of rounds is not fixed in advance ends, from every state and whatever the clock shows: skipping expired datapoints, searching the vectors of a centroid, DrainUnordered, Expire, MemTrim, the mean, the portioning of n datapoints among centroids, the client's filter of empty centroids, and the loop of StealCentroid from another node (run alone, whatever messages get lost).", "quantifier": "every state of a centroid, manager and network, every clock", "why_tests_cant": "termination for all states is not observable by testing", "anchors": ["pkg/kmeans/centroid/centroid.go", "pkg/searchutils/knn.go:KNNBrute", "pkg/mathutils/vectools.go:VecMean", "pkg/kmeans/centroidmanager/cmanager.go:centroidDataPointPortions", "pkg/kmeans/rpc/client.go:NearestCentroids", "pkg/kmeans/rpc/server.go:StealCentroid"]}
{"id": "C65", "title": "A node distributes at most n datapoints, each to the best node that takes it", "statement": "DistributeDataPointsFast/Accurate(n, addrs) of a node: what it hands out is what DrainOrdered(n) of its manager takes out, at most n (one for n = 0), none of it expired; each datapoint goes to the first reachable node in the order of best fit among those of addrs that answered with a vector (fast: asked once, accurate: asked for each datapoint), and back to the node itself when none can be reached; nodes outside addrs and other namespaces are untouched and no namespace is created.", "quantifier": "every world, addresses, n, clock and pattern of unreachable nodes (no lost replies), run alone", "why_tests_cant": "all worlds and failures", "anchors": ["pkg/kmeans/rpc/server.go:DistributeDataPointsFast", "pkg/kmeans/rpc/server.go:DistributeDataPointsAccurate", "pkg/kmeans/rpc/server.go:distributeDP"]}
{"id": "C66", "title": "The distribution tasks do one round per local namespace", "statement": "The DistributeDataPointsFast and DistributeDataPointsAccurate tasks ask the local node for its namespaces and for each of them, in the order of the answer, let the local node distribute the configured number of datapoints to exactly those RemoteAddrs that report the namespace at that time; they create and drop no namespace, and whatever a node holds afterwards it held before or the local node held it in the same namespace.", "quantifier": "every world, configuration, clock and pattern of unreachable nodes (no lost replies), run alone", "why_tests_cant": "all worlds, configurations and failures", "anchors": ["core/eventloop/eltask.go:eltDistributeDataPointsFast", "core/eventloop/eltask.go:eltDistributeDataPointsAccurate", "core/eventloop/eltask.go:withNamespaceTable"]}
{"id": "C67", "title": "The loop does what its tasks do, on schedule", "statement": "Any number of iterations of the event loop, from any iteration on, has exactly the effect and reports of running the nine tasks one after another in the documented order, each one exactly in the iterations whose tick is a multiple of its interval.", "quantifier": "every configuration with intervals other than 0, every world and network behaviour, any number of iterations", "why_tests_cant": "unbounded runs", "anchors": ["core/eventloop/el.go:EventLoop", "core/eventloop/eltask.go:withSkip"]}
{"id": "C68", "title": "The mean in float64 is near the exact mean", "statement": "Every finite component of VecMean of n vectors (n up to 2^53) differs from the exact mean by at most ((1+2^-53)^n - 1) times the mean of the magnitudes plus 2^-1075; with at most 2^50 vectors of finite components of magnitude at most M (between 2^-1000 and 2^900) all components are finite and within 2 n M 2^-53 + 2^-1075.", "quantifier": "every list of float64 vectors", "why_tests_cant": "all rounding behaviours", "anchors": ["pkg/mathutils/vectools.go:VecMean"]}
{"id": "C69", "title": "CosineSimilarity in float64 is finite and near the exact cosine", "statement": "For two vectors of equal length n up to 2^20 with finite components of magnitude at most 2^500, each with some component of magnitude at least 2^-480, CosineSimilarity returns a finite number within (2n+8) 2^-53 of the exact cosine; so never NaN and never above 1 + (2n+8) 2^-53.", "quantifier": "every pair of such vectors", "why_tests_cant": "all rounding behaviours, overflow and underflow", "anchors": ["pkg/mathutils/distance.go:CosineSimilarity", "pkg/mathutils/distance.go:norm"]}
{"id": "C70", "title": "EuclideanDistance in float64 is finite and near the exact sum of differences", "statement": "For two vectors of equal length n up to 2^20 with finite components of magnitude at most 2^500, EuclideanDistance returns a finite number within (n+4) 2^-53 times the exact sum of absolute differences plus n 2^-536.", "quantifier": "every pair of such vectors", "why_tests_cant": "all rounding behaviours, underflow of squares", "anchors": ["pkg/mathutils/distance.go:EuclideanDistance"]}
{"id": "C71", "title": "Searches over float64 vectors are optimal up to rounding", "statement": "KNNCos, KFNCos, KNNEuc and KFNEuc on pools of ordinary float64 vectors return exactly min(k, number of vectors of the target's dimension) distinct indexes of such vectors, best first, none returned late or left out being better in the exact score by more than the rounding bound ((4n+16) 2^-53 for the cosine); the same for KNNLookup of a centroid.", "quantifier": "every target, pool and k", "why_tests_cant": "all pools and rounding behaviours", "anchors": ["pkg/searchutils/knn.go", "pkg/kmeans/centroid/centroid.go:KNNLookup", "pkg/mathutils/distance.go"]}
{"id": "C72", "title": "A centroid's vector never drifts far from the mean", "statement": "After every history of calls other than MemTrim on any number of centroids, in float64, with N datapoints put in (8 N (N+2) at most 2^53) of finite components of magnitude at most M, no component of any centroid vector is NaN or infinite and each is within 8 N (N+2) 2^-53 M / n of the exact mean of the n datapoints held, whatever the number of drains, lookups and MoveVector calls.", "quantifier": "every history, number of centroids, clock and search keeping its contract", "why_tests_cant": "accumulated rounding over unbounded histories", "anchors": ["pkg/kmeans/centroid/centroid.go:addDataPoint", "pkg/kmeans/centroid/centroid.go:rmDataPoint", "pkg/kmeans/centroid/centroid.go:MoveVector", "pkg/kmeans/centroid/centroid.go:DistributeDataPoints"]}
{"id": "C73", "title": "Datapoints handed out are never changed later", "statement": "For every history of calls on any number of centroids and every choice of capacities by append, the backing arrays of the slices hold element by element what value semantics says: no call on one centroid changes another, an answer of DrainUnordered, DrainOrdered or KNNLookup reads the same at every later time, no answer shares its array with a centroid and no two centroids share one, although removals shift datapoints within the array.", "quantifier": "every history of calls, any number of centroids (also distribution of a centroid to itself), every growth policy of append", "why_tests_cant": "aliasing through shared backing arrays depends on capacities reached by long histories", "anchors": ["pkg/kmeans/centroid/centroid.go:rmDataPoint", "pkg/kmeans/centroid/centroid.go:addDataPoint", "pkg/kmeans/centroid/centroid.go:DrainOrdered", "pkg/kmeans/centroid/centroid.go:KNNLookup", "pkg/kmeans/centroid/centroid.go:MemTrim"]}
{"id": "C74", "title": "MemTrim makes capacity equal length and frees what was removed", "statement": "After Centroid.MemTrim the capacity of DataPoints equals its length, and no removed datapoint is reachable through the array behind it.", "quantifier": "every history of calls, every growth policy of append", "why_tests_cant": "all histories", "anchors": ["pkg/kmeans/centroid/centroid.go:MemTrim"]}
{"id": "C75", "title": "Every accepted connection is served exactly once", "statement": "In every interleaving of clients connecting, the accept loop of StartListen, calls of stop and failures of Accept, connections are served in the order they were accepted, each exactly once; at most one accepted connection is not being served yet, and the accept loop then needs at most two steps to serve it.", "quantifier": "every schedule, any number of connections and stop calls", "why_tests_cant": "unbounded interleavings of goroutines", "anchors": ["pkg/kmeans/rpc/rpc.go:StartListen"]}
{"id": "C76", "title": "Stop ends the server", "statement": "After the stop function of StartListen returns, no request is handled any more.", "quantifier": "every schedule, any number of connections and stop calls", "why_tests_cant": "unbounded interleavings of goroutines", "anchors": ["pkg/kmeans/rpc/rpc.go:StartListen"]}
{"id": "C77", "title": "Stop never panics", "statement": "Calling the stop function returned by StartListen, at any time and any number of times, never panics.", "quantifier": "every schedule, any number of connections and stop calls", "why_tests_cant": "a race of two instructions", "anchors": ["pkg/kmeans/rpc/rpc.go:StartListen"]}
{"id": "C78", "title": "The server accepts connections until stopped", "statement": "Until stop is called, the node keeps accepting connections.", "quantifier": "every schedule and every failure of Accept", "why_tests_cant": "failures of the operating system", "anchors": ["pkg/kmeans/rpc/rpc.go:StartListen"]}
{"id": "C79", "title": "An answer of NearestCentroids is a state the centroid had", "statement": "The datapoints of a centroid that a client receives from NearestCentroids are those the centroid held at the end of the call.", "quantifier": "every history of calls, every history of calls by other requests while the reply is being written", "why_tests_cant": "race between the encoder and other requests", "anchors": ["pkg/kmeans/rpc/server.go:NearestCentroids", "pkg/kmeans/centroid/centroid.go:rmDataPoint"]}
{"id": "C80", "title": "No request can crash a node", "statement": "No RPC request and no HTTP request makes the process of a node panic, whatever its arguments.", "quantifier": "every request, every state of the nodes, every clock and network behaviour", "why_tests_cant": "all arguments, including those no client of the project sends", "anchors": ["pkg/kmeans/rpc/server.go:KNNLookup", "pkg/kmeans/rpc/server.go:DrainOrdered", "pkg/kmeans/rpc/server.go:DistributeDataPointsFast", "core/api/handler.go:queryDataPoint", "pkg/searchutils/knn.go:KNNBrute"]}
{"id": "C81", "title": "A client method is the server's method behind the network", "statement": "Every client method that makes one RPC either does nothing and returns the zero value because the server was not reached, or the server's method runs exactly once; then it returns what that method answered, or the zero value if the method failed or its reply was lost. StealCentroids reports an error as (0, false). KNNLookup panics in the caller for negative k.", "quantifier": "every client method, arguments, state of the nodes and network behaviour", "why_tests_cant": "all failures of the network at all times", "anchors": ["pkg/kmeans/rpc/client.go", "pkg/kmeans/rpc/client.go:StealCentroids", "pkg/kmeans/rpc/client.go:KNNLookup"]}
{"id": "C82", "title": "All datapoints of a namespace at a node have one dimension", "statement": "At every node, the vector of a namespace, of its centroids and of its datapoints always have the same dimension, whatever datapoints clients send.", "quantifier": "every set of jobs, datapoints, interleaving and network behaviour", "why_tests_cant": "race between StealCentroid and the first AddDataPoint after a namespace was emptied", "anchors": ["pkg/kmeans/rpc/server.go:StealCentroid", "pkg/kmeans/rpc/server.go:AddDataPoint", "pkg/kmeans/centroidmanager/cmanager.go:AddDataPoint"]}
{"id": "C83", "title": "A running service never crashes and stays consistent", "statement": "Nodes that run their event loops and answer requests arriving at any time, with everything interleaved in any way, never panic: the state stays consistent, no namespace disappears, and the requests served are exactly those that arrived.", "quantifier": "any number of nodes, event loops, requests, failures of the network, interleavings and times of stopping", "why_tests_cant": "unbounded interleavings of event loops, their goroutines and requests", "anchors": ["cmd/service/service.go:main", "core/eventloop/el.go:EventLoop", "pkg/kmeans/rpc/server.go", "core/api/handler.go:putDataPoint"]}
{"id": "C84", "title": "Event loops keep to their schedule whatever else happens", "statement": "In a running service each event loop calls its tasks in the documented order and by the configured intervals, one at a time; when a task has returned, exactly the goroutines of its go statements have been started; after the stop function was called the loop sleeps or calls a task at most once more.", "quantifier": "any number of nodes, requests, interleavings and times of stopping", "why_tests_cant": "unbounded interleavings", "anchors": ["core/eventloop/el.go:EventLoop", "core/eventloop/el.go:elStep", "core/eventloop/eltask.go:eltExpire"]}
{"id": "C85", "title": "A running service loses and invents no data", "statement": "Whenever everything that was started is done, the datapoints of a namespace at all nodes are those from the beginning plus those that requests brought, minus those handed out, minus expired ones. At any time, a stored datapoint was there in the beginning or was brought by a request for the same namespace.", "quantifier": "any number of nodes, event loops, requests and interleavings", "why_tests_cant": "unbounded interleavings of event loops, their goroutines and requests", "anchors": ["cmd/service/service.go:main", "core/eventloop/eltask.go:eltDistributeDataPointsFast", "core/eventloop/eltask.go:eltLoadBalancing"]}
{"id": "C86", "title": "A running service makes progress", "statement": "If every goroutine gets to run again and again, every request is answered, every task returns and every started goroutine ends; an event loop that is not stopped gets to every iteration of its schedule, and one that is stopped ends.", "quantifier": "every fair schedule, any number of nodes, requests arriving all the time", "why_tests_cant": "liveness over infinite runs", "anchors": ["core/eventloop/el.go:EventLoop", "cmd/service/service.go:main"]}
{"id": "C87", "title": "A running service gets rid of expired datapoints", "statement": "A node whose event loop runs, whose own address answers and that is given time: from some moment on no namespace of it holds a datapoint that had expired at an earlier moment, although puts, distribution and load balancing go on and may bring such datapoints along.", "quantifier": "every fair schedule, any number of nodes, requests arriving all the time", "why_tests_cant": "liveness over infinite runs; goroutines that hold datapoints or look up managers before the clean-up and write after it", "anchors": ["core/eventloop/eltask.go:eltExpire", "core/eventloop/el.go:EventLoop", "pkg/kmeans/rpc/server.go:Expire", "pkg/kmeans/centroidmanager/cmanager.go:Expire", "pkg/kmeans/centroidmanager/cmanager.go:AddDataPoint"]}
{"id": "C88", "title": "Splitting and merging settle", "statement": "If the halves of a centroid that is to be split are too large to be merged (as in the shipped configuration), then SplitCentroids and MergeCentroids, called in any order, do not work against each other: once a merge was followed by enough splits (the logarithm of the number of datapoints), no centroid is left to split or to merge, except that a single one may be small, no datapoint was lost or added, and further calls change no centroid.", "quantifier": "every sequence of calls, every manager, sizes and ranges, datapoints that do not expire meanwhile", "why_tests_cant": "needs unbounded sequences of calls; oscillation shows only for particular ranges", "anchors": ["pkg/kmeans/centroidmanager/cmanager.go:SplitCentroids", "pkg/kmeans/centroidmanager/cmanager.go:MergeCentroids", "core/eventloop/eltask.go:eltSplitCentroids", "cfg/cfg.go:ELT"]}
{"id": "C89", "title": "The service with the shipped configuration works", "statement": "The node that cmd/service starts with cfg/cfg.go, with nothing stored and able to reach itself: no request that is valid for its namespace makes anything panic; all requests are answered; the event loop runs each task in the iterations that the configuration says (each task at least every 20 iterations), expired datapoints disappear, and splitting and merging with the configured ranges settle.", "quantifier": "every schedule and every stream of requests", "why_tests_cant": "liveness over infinite runs of the assembled program; the values of the configuration matter", "anchors": ["cfg/cfg.go:ELT", "cmd/service/service.go:main", "core/eventloop/el.go:EventLoop", "core/eventloop/cfg.go:validate"]}
{"id": "C90", "title": "The status lines show what the nodes hold", "statement": "With the default logger, after the Meta task, each task of the event loop is printed as one line per node that is shown (the local one, or all of RemoteAddrs in their order), with the numbers of namespaces, centroids and datapoints of that node, and with the name of the task at exactly the local node. Before the first Meta task, and never otherwise, the task is printed alone.", "quantifier": "every configuration, any number of nodes and namespaces, any sequence of calls", "why_tests_cant": "depends on the configuration and on which nodes can be reached; there are no tests of the logger", "anchors": ["core/eventloop/log.go:LogTask", "core/eventloop/log.go:LogMeta", "core/eventloop/eltask.go:eltMeta", "core/eventloop/cfg.go:validate"]}
{"id": "C91", "title": "Each call of EventLoop starts a loop of its own", "statement": "EventLoop may be called several times with the same configuration, at the same time or after an earlier loop was stopped: each loop runs its tasks by its own count of iterations, and the function that the call returned stops this loop and no other.", "quantifier": "any number of calls, all interleavings of the loops and of the calls of the stop functions", "why_tests_cant": "interleavings of goroutines with shared state; the tests start a loop once per configuration", "anchors": ["core/eventloop/el.go:EventLoop", "core/eventloop/el.go:elStep", "core/eventloop/cfg.go:validate"]}
{"id": "C92", "title": "Answers come from the namespace that was asked for", "statement": "In a running service with event loops and concurrent requests, every datapoint in the answer to a query (or to a lookup, a drain or a request for centroids over RPC) for a namespace was stored in this namespace in the beginning or was brought to it by a request that arrived before the answer; it had not expired when the request arrived (not for centroids, which are handed over as they are); what a search found has a cosine similarity with the vector that was searched for; and there are at most as many datapoints as were asked for.", "quantifier": "any number of nodes, event loops, concurrent requests and failures, all interleavings", "why_tests_cant": "interleavings of requests with moving datapoints; the tests ask a quiet network", "anchors": ["core/api/handler.go:queryDataPoint", "core/dps/getdps.go:getDataPoints", "pkg/kmeans/rpc/client.go:KNNLookup", "pkg/kmeans/rpc/server.go:KNNLookup", "pkg/kmeans/rpc/server.go:DrainOrdered", "pkg/kmeans/rpc/server.go:NearestCentroids"]}
{"id": "C93", "title": "The body of an answer lists what was found", "statement": "When an HTTP query is answered with 200, the body lists every datapoint that was found (and, if the query drains, taken away). In particular all components of what is found are numbers: a datapoint with a NaN or an infinity can be added over RPC but is never found by a search.", "quantifier": "any number of nodes, event loops, concurrent requests and failures, all interleavings, all datapoints", "why_tests_cant": "the error of json.Marshal is ignored, and whether it can occur depends on values (NaN, infinities, years) that may come in over RPC and on what the search lets through", "anchors": ["core/api/handler.go:queryDataPoint", "core/api/conv.go:DataPointsToDPs", "pkg/searchutils/knn.go:KNNBrute", "pkg/mathutils/distance.go:CosineSimilarity"]}
{"id": "C94", "title": "Load balancing comes to rest", "statement": "If nothing but load balancing happens, then after finitely many runs of the load-balancing task, at any of the nodes and in any order, no datapoint is moved any more.", "quantifier": "any number of nodes and namespaces, all datapoints and centroids, any number of runs in any order", "why_tests_cant": "a test runs the task a few times and sees datapoints move; whether they would move forever is a statement about infinitely many runs, and depends on the sizes of centroids, which are moved as a whole", "anchors": ["core/eventloop/eltask.go:eltLoadBalancing", "pkg/kmeans/rpc/server.go:StealCentroid", "pkg/kmeans/rpc/client.go:StealCentroids"]}
{"id": "C95", "title": "A node that is short of datapoints is fed", "statement": "A node that has less than three fifths of the average number of datapoints of a namespace, and runs its load-balancing task, gets at least a third of its share of what it lacks, provided that another node can give that much and keep seven fifths of the average.", "quantifier": "any number of nodes and namespaces, all datapoints and centroids, all orders of the map", "why_tests_cant": "what the other node hands over depends on the vector of the local node, on the outcome of a search and on the order in which the nodes are visited; a node that has lost all its datapoints looks like a new one in a test", "anchors": ["core/eventloop/eltask.go:eltLoadBalancing", "pkg/kmeans/rpc/server.go:StealCentroid", "pkg/kmeans/centroidmanager/cmanager.go:MoveVector"]}
{"id": "C96", "title": "Every configuration that EventLoop accepts can be run", "statement": "EventLoop panics by itself if the configuration is unusable; any configuration that it accepts can be run for any time, with any requests, without a panic.", "quantifier": "all configurations, all schedules, all sequences of valid requests", "why_tests_cant": "tests use sensible configurations; a wrong one shows only when the task that uses it has its turn, in a goroutine of the server, and then takes down the process", "anchors": ["core/eventloop/cfg.go:validate", "core/eventloop/el.go:EventLoop", "core/eventloop/eltask.go:eltDistributeDataPointsFast", "cmd/service/service.go:main"]}
{"id": "C97", "title": "The API can be started whenever its address is free", "statement": "A call of api.Start with non-nil RPCAddrs at a free address comes to serve both paths, and requests are dealt with by the nodes in its RPCAddrs; without RPCAddrs it returns an error and has no other effect.", "quantifier": "any number of calls in a process, one after the other or at the same time, any order of the routes, addresses taken and given free by others at any time", "why_tests_cant": "the API can be started once per test binary, the existing test does just that; the order of the routes is that of a map and differs from run to run", "anchors": ["core/api/api.go:Start", "core/api/api.go:check", "core/api/handler.go:setRoutes"]}
{"id": "C98", "title": "The service comes up or leaves nothing behind", "statement": "main gets to a state in which node and API listen at their addresses exactly if these are free and differ and there are addresses of nodes; otherwise it panics with the reason and nothing is left that listens.", "quantifier": "all addresses, any addresses taken before, any order of the routes", "why_tests_cant": "main is never called by a test", "anchors": ["cmd/service/service.go:main", "core/api/api.go:Start", "pkg/kmeans/rpc/rpc.go:StartListen"]}
{"id": "C99", "title": "A test network can be stopped and started again", "statement": "NewTNetwork creates a node at each of the addresses or panics if one is not free; Stop gives the addresses free, so that a network can be created there again; Reset takes away all data of its nodes and nothing else.", "quantifier": "all lists of addresses, any addresses taken before, all stored data", "why_tests_cant": "the tests use other ports for every network and never look at what Stop did", "anchors": ["core/testutils/network.go:NewTNetwork", "core/testutils/network.go:StartListen", "core/testutils/network.go:Stop", "core/testutils/network.go:Reset", "pkg/kmeans/rpc/rpc.go:Reset"]}
{"id": "C100", "title": "Vectors passed in are never modified", "statement": "The functions of pkg/mathutils and the searches of pkg/searchutils, run on slices that are windows into arrays, write into no array that existed before the call, access no element out of range, return vectors in arrays of their own, and compute what the same functions compute on plain lists of numbers; a search panics exactly for a negative k.", "quantifier": "all memories, all slices (overlapping, shared or with spare capacity), all scalar values, all k", "why_tests_cant": "a function that writes into its argument or keeps an alias of it gives right answers in a test that looks at the answer only", "anchors": ["pkg/mathutils/vectools.go:VecMean", "pkg/mathutils/vectools.go:VecAdd", "pkg/mathutils/vectools.go:VecSub", "pkg/mathutils/vectools.go:VecMulScalar", "pkg/mathutils/vectools.go:VecDivScalar", "pkg/mathutils/distance.go:CosineSimilarity", "pkg/mathutils/distance.go:EuclideanDistance", "pkg/searchutils/knn.go:KNNBrute", "pkg/searchutils/knn.go:bubble"]}
{"id": "C101", "title": "HTTP requests cannot take a process down", "statement": "Whatever HTTP requests arrive, next to RPC requests and event loops and in any interleaving, no process panics. An HTTP request stays without an answer exactly if it queries a negative number of datapoints; its handler panics (net/http closes the connection), and it changes nothing at any node. For all other requests it makes no difference that net/http recovers.", "quantifier": "every set of HTTP requests with any counts that memory suffices for, other jobs with counts that are not negative, datapoints, clock, interleaving and network behaviour", "why_tests_cant": "a test sends a few bad requests to an idle server; whether the panic of a handler can leave data behind or reach the process depends on what it did before", "anchors": ["core/api/handler.go:queryDataPoint", "core/api/handler.go:putDataPoint", "core/dps/getdps.go:getDataPoints", "pkg/kmeans/rpc/client.go:KNNLookup", "core/nodes/nodes.go:bestFitNodes"]}
{"id": "C102", "title": "A query for enough datapoints finds all of them", "statement": "If all nodes can be reached, nothing expires and nobody else is at work, a query (fast or accurate) that asks for at least as many datapoints as the namespace holds plus the number of centroids of any node is answered with exactly the datapoints that can be compared with the query vector and lie in centroids that can be compared with it (in the fast variant: at nodes whose manager vector can be compared with it), each once. If it drains they are gone afterwards and everything else is unchanged; otherwise nothing changes. In exact arithmetic these are all datapoints of the namespace.", "quantifier": "every world of consistent nodes, list of distinct addresses, namespace, query vector, flags and sufficient count; every scalar type", "why_tests_cant": "tests query a handful of datapoints; that no datapoint is missed depends on the order of centroids and nodes, on the early stops of three nested loops and on vectors that cannot be compared", "anchors": ["core/api/handler.go:queryDataPoint", "core/dps/getdps.go:getDataPoints", "core/dps/getdps.go:GetDataPointsFast", "core/dps/getdps.go:GetDataPointsAccurate", "pkg/kmeans/centroidmanager/cmanager.go:KNNLookup", "pkg/kmeans/centroid/centroid.go:KNNLookup"]}
{"id": "C103", "title": "What was put is found", "statement": "In exact arithmetic, with nodes that can be reached and nobody else at work: datapoints of the namespace's dimension that do not expire are put through HTTP one after the other, in any mix of fast and accurate, whether the namespace exists or not. Every request is answered with 200, and every later query that asks for enough datapoints, with any vector of that dimension, is answered with exactly the datapoints stored before and those that were put.", "quantifier": "every consistent world, list of datapoints, list of distinct addresses and query", "why_tests_cant": "end-to-end behaviour for every sequence of requests; tests put a few datapoints into one node", "anchors": ["core/api/handler.go:putDataPoint", "core/api/handler.go:queryDataPoint", "core/dps/putdps.go:putDataPoint", "core/dps/getdps.go:getDataPoints", "pkg/kmeans/centroidmanager/cmanager.go:AddDataPoint", "pkg/kmeans/centroidmanager/cmanager.go:KNNLookup"]}
{"id": "C104", "title": "Namespaces created one at a time are never replaced", "statement": "A service of any number of nodes runs with any requests, puts, queries, tasks of event loops and load balancers, interleaved in any way. If at no time two of them that are not done could both create a namespace that does not exist yet at some node, then no manager is ever replaced by another: every manager there ever was stays reachable. So nothing that was stored is lost by creating namespaces: whenever everything is done, the datapoints at all nodes are those there were plus those brought, minus those handed out, minus expired ones. For the shipped configuration it is enough that no two puts to the same namespace are going on before it exists.", "quantifier": "every number of nodes, configuration, sequence of events, network, clock and argument; the conservation part under the hypotheses of C85", "why_tests_cant": "the damage of C42 needs two goroutines between the lookup and the insertion in the table; a test cannot show that it is the only way for a manager to get lost, over all programs of the service and all interleavings", "anchors": ["pkg/kmeans/rpc/rpc.go:AddSlot", "pkg/kmeans/rpc/rpc.go:Access", "pkg/kmeans/rpc/server.go:AddDataPoint", "pkg/kmeans/rpc/server.go:StealCentroid", "core/dps/putdps.go:putDataPoint", "core/eventloop/eltask.go:eltLoadBalancing"]}
{"id": "C105", "title": "What the vectors are after MemTrim, splits and draining", "statement": "In exact arithmetic, for vectors that were means before: after Centroid.MemTrim, and when DrainUnordered empties a centroid, its vector is that of the datapoint that was stored last, even if that one has expired. After CentroidManager.MemTrim, Vec is the mean of the (changed) centroid vectors if no centroid was dropped and none is left with exactly one datapoint among several centroids. SplitCentroids leaves Vec as it was; after AddDataPoint, Vec is the mean of the vectors the centroids had before the automatic split.", "quantifier": "every centroid or manager state with consistent dimensions, clock, evaluation function and datapoint", "why_tests_cant": "the exact value after a sequence of removals with running corrections holds for all sizes and vectors; tests compare one or two vectors", "anchors": ["pkg/kmeans/centroid/centroid.go:MemTrim", "pkg/kmeans/centroid/centroid.go:rmDataPoint", "pkg/kmeans/centroid/centroid.go:DrainUnordered", "pkg/kmeans/centroidmanager/cmanager.go:MemTrim", "pkg/kmeans/centroidmanager/cmanager.go:SplitCentroids", "pkg/kmeans/centroidmanager/cmanager.go:splitCentroid", "pkg/kmeans/centroidmanager/cmanager.go:AddDataPoint"]}
{"id": "C106", "title": "A query answers with the best datapoints of the nearest centroids of the nearest nodes", "statement": "GetDataPointsFast, GetDataPointsAccurate and the HTTP query, for n >= 0 and with nobody else at work, ask the nodes in the order of the similarity of their vectors (of their nearest centroids, if accurate) until n datapoints are collected. Each node asks its k nearest centroids, nearest first, k being what is still missing, and each of these gives its best live datapoints, best first. A node whose messages are lost gives nothing. With one node and one centroid the answer is exactly the n most similar datapoints.", "quantifier": "every state of the nodes, query vector, n, drain flag, list of different addresses, loss of messages and clock", "why_tests_cant": "the composition of three levels of search holds for all contents, scores with ties and NaN, expiry during the call and lost messages; a test sees one arrangement and the search is approximate, so a wrong answer looks like a plausible one", "anchors": ["core/dps/getdps.go:getDataPoints", "core/dps/getdps.go:GetDataPointsFast", "core/dps/getdps.go:GetDataPointsAccurate", "core/api/handler.go:queryDataPoint", "pkg/kmeans/centroidmanager/cmanager.go:KNNLookup", "pkg/kmeans/centroid/centroid.go:KNNLookup", "pkg/kmeans/rpc/client.go:KNNLookup", "pkg/kmeans/rpc/server.go:KNNLookup"]}
{"id": "C107", "title": "Datapoints are placed at the nearest centroid", "statement": "With the cosine searches and nothing expiring meanwhile: AddDataPoint of a manager refuses a datapoint only if it can be compared with no centroid; otherwise it appends it to the centroid whose vector is most similar, the first of them if several are (splitting that one at the threshold: the first half of a threshold moves to a new centroid). DistributeDataPoints of a centroid gives up its n furthest datapoints and adds each, furthest first, to the receiver whose vector is most similar at that moment, or back to itself if none can be compared. DistributeDataPoints and DistributeDataPointsInternal of a manager do this for one centroid after the other; the portions add up to n (or to all datapoints) and are as even as the sizes of the centroids allow, earlier centroids first; afterwards every vector is the mean of the datapoints of its centroid.", "quantifier": "every manager, datapoint, threshold, list of receivers (own or foreign centroids), n, order of the portions map, and clock", "why_tests_cant": "vectors change with every datapoint placed, so each placement depends on all before it; ties, zero vectors and lengths that do not fit only show for particular contents", "anchors": ["pkg/kmeans/centroidmanager/cmanager.go:AddDataPoint", "pkg/kmeans/centroidmanager/cmanager.go:splitCentroid", "pkg/kmeans/centroidmanager/cmanager.go:DistributeDataPoints", "pkg/kmeans/centroidmanager/cmanager.go:DistributeDataPointsInternal", "pkg/kmeans/centroidmanager/cmanager.go:centroidDataPointPortions", "pkg/kmeans/centroid/centroid.go:DistributeDataPoints", "pkg/kmeans/centroid/centroid.go:DrainOrdered", "pkg/kmeans/centroid/centroid.go:AddDataPoint"]}
{"id": "C108", "title": "Redistribution leaves datapoints alone that are at their nearest centroid", "statement": "If every datapoint of a manager is at the centroid whose vector is most similar to it, DistributeDataPointsInternal(n) leaves every datapoint where it is; in any case it moves at most n of them.", "quantifier": "every manager with the cosine searches in which nothing expires, n, order of the portions map, and clock", "why_tests_cant": "the state has to be one in which redistribution has nothing to do, which no test sets up; taking a datapoint out moves the vector it is then compared with, and whether that matters depends on the geometry", "anchors": ["pkg/kmeans/centroidmanager/cmanager.go:DistributeDataPointsInternal", "pkg/kmeans/centroidmanager/cmanager.go:DistributeDataPoints", "pkg/kmeans/centroid/centroid.go:DistributeDataPoints", "pkg/kmeans/centroid/centroid.go:DrainOrdered"]}
{"id": "C109", "title": "Repeated redistribution comes to rest", "statement": "Once nothing else is called on a manager and nothing expires, only finitely many of any sequence of DistributeDataPointsInternal(n) calls move a datapoint to another centroid.", "quantifier": "every history leading to the state, n, infinite sequence of calls with an order of the portions map of its own for each, and clock", "why_tests_cant": "it is a statement about infinitely many calls; the loop of the service makes them for as long as it runs, and no test makes more than one", "anchors": ["pkg/kmeans/centroidmanager/cmanager.go:DistributeDataPointsInternal", "pkg/kmeans/centroidmanager/cmanager.go:DistributeDataPoints", "pkg/kmeans/centroidmanager/cmanager.go:centroidDataPointPortions", "pkg/kmeans/centroidmanager/cmanager.go:MoveVector", "pkg/kmeans/centroid/centroid.go:DistributeDataPoints", "pkg/kmeans/centroid/centroid.go:DrainOrdered"]}
{"id": "C110", "title": "A query for fewer datapoints is the beginning of a query for more", "statement": "While nothing expires, what a lookup answers for k is the beginning of what it answers, from the same state, for any larger k, whether either of them drains or not: KNNLookup of a centroid, KNNLookup of a manager, and a query to nodes that answer and are asked in the same order.", "quantifier": "every state, query vector, pair k <= k', draining or not, clock; for centroids and managers any of the four library searches", "why_tests_cant": "two calls from one state have to be compared, for all sizes; whether a shorter answer is a beginning depends on how the slots of the search are filled and on which centroids and nodes are asked at all", "anchors": ["pkg/searchutils/knn.go:bubble", "pkg/searchutils/knn.go:KNNBrute", "pkg/kmeans/centroid/centroid.go:KNNLookup", "pkg/kmeans/centroidmanager/cmanager.go:KNNLookup", "core/dps/getdps.go:getDataPoints", "core/api/handler.go:queryDataPoint"]}
{"id": "C111", "title": "Ties in a search go to the earlier candidate", "statement": "Of two candidates with equal scores the search functions choose the later one only if they also choose the earlier one, and list it after that.", "quantifier": "every target, pool, k and each of the four library searches", "why_tests_cant": "no test has ties; the order of equal scores depends on which candidates came in between", "anchors": ["pkg/searchutils/knn.go:bubble", "pkg/searchutils/knn.go:KNNBrute", "pkg/searchutils/knn.go:KNNCos", "pkg/searchutils/knn.go:KFNCos", "pkg/searchutils/knn.go:KNNEuc", "pkg/searchutils/knn.go:KFNEuc"]}
{"id": "C112", "title": "MergeCentroids absorbs the nearest centroids in order, until satisfied", "statement": "While nothing expires, MergeCentroids gives the centroids their turns in order. One that is still there and of which the predicate holds takes all datapoints of other centroids still there, those nearest to the vector it starts with first, none nearer being passed over, until the predicate no longer holds of it or no other is left that can be compared. What is left are the centroids that were not absorbed, in their order.", "quantifier": "every consistent manager with one of the library searches, every predicate, clock", "why_tests_cant": "the result depends on the order of turns, on searches among centroids that change and vanish, and on the predicate after every step; a test fixes one arrangement", "anchors": ["pkg/kmeans/centroidmanager/cmanager.go:MergeCentroids", "pkg/kmeans/centroidmanager/cmanager.go:centroidVecGenerator", "pkg/kmeans/centroid/centroid.go:DrainUnordered", "pkg/kmeans/centroid/centroid.go:AddDataPoint"]}
{"id": "C113", "title": "Every centroid that MergeCentroids absorbs is the nearest at that moment", "statement": "Whenever MergeCentroids merges a centroid into another, no other centroid still there is nearer to the one it is merged into.", "quantifier": "every consistent manager with one of the library searches, every predicate", "why_tests_cant": "it takes a centroid that absorbs two others, with a vector that turns towards a third after the first", "anchors": ["pkg/kmeans/centroidmanager/cmanager.go:MergeCentroids"]}
{"id": "C114", "title": "A datapoint that is put lands at the nearest centroid", "statement": "An accurate put, with nodes that can be reached and while nothing expires, adds the datapoint to the centroid that is most similar to it of all centroids at the listed nodes (splitting it if it reaches the threshold) and changes nothing else; it does nothing and returns false only if no centroid can be compared. A fast put does the same with the most similar centroid of the node whose manager's vector is most similar. An HTTP put is answered with 200 and lands accordingly.", "quantifier": "every consistent world, list of nodes, order of answers, namespace with a dimension above 0, datapoint that does not expire", "why_tests_cant": "the choice composes answers of all nodes in any order with the search inside the chosen node; a test sees a few worlds, and a wrong choice still stores the datapoint somewhere", "anchors": ["core/dps/putdps.go:PutDataPointAccurate", "core/dps/putdps.go:PutDataPointFast", "core/nodes/nodes.go:BestFitNodesAccurate", "core/nodes/nodes.go:BestFitNodesFast", "core/api/handler.go:putDataPoint", "pkg/kmeans/centroidmanager/cmanager.go:AddDataPoint"]}
{"id": "C115", "title": "StealCentroid takes the nearest centroids, one at a time", "statement": "StealCentroid from another node that can be reached, while nothing expires, takes whole centroids one after the other, each time the one nearest to the vector the stealing node had at first (or the other node's, if it did not have the namespace), until the limit is reached, or none can be compared, or the nearest is empty, which is dropped. They are at the end of the stealing node's centroids, in that order, with their datapoints in order; the answer is the number of datapoints taken with OK; the stealing node's vector is the mean of its centroids' vectors; nothing else changes.", "quantifier": "every consistent world, pair of different nodes, limit, namespace with a dimension above 0", "why_tests_cant": "which centroids change sides is a sequence of searches in a shrinking list at another node; conservation tests cannot tell the right centroid from another one", "anchors": ["pkg/kmeans/rpc/server.go:StealCentroid", "pkg/kmeans/rpc/client.go:NearestCentroids", "pkg/kmeans/centroidmanager/cmanager.go:NearestCentroids", "pkg/kmeans/centroidmanager/cmanager.go:MoveVector"]}
{"id": "C116", "title": "Any mix of receivers: nothing is lost, nothing else is touched", "statement": "DistributeDataPoints of a centroid or of a manager, with receivers that are centroids and managers in any mix (repeated, the giver itself, the manager that holds the giver and may split it meanwhile, centroids beside the manager holding them): never panics, loses and duplicates no live datapoint, leaves all managers and centroids consistent, and does not change centroids or manager vectors that are neither the giver's nor reachable through a receiver. Other centroids not held by a receiving manager keep what they had. Unless the manager holding it receives, at most n datapoints leave the giving centroid. A manager that distributes ends with the mean of its centroids' vectors.", "quantifier": "every set of consistent managers and centroids, giver, n (>= 0 for a centroid), list of receivers, map order, monotone clock", "why_tests_cant": "receivers alias each other and the giver; splits during the distribution change the list being walked; the combinations are endless", "anchors": ["pkg/kmeans/centroid/centroid.go:DistributeDataPoints", "pkg/kmeans/centroidmanager/cmanager.go:DistributeDataPoints", "pkg/kmeans/common/datapoint.go:DataPointReceiver", "pkg/kmeans/centroidmanager/cmanager.go:AddDataPoint"]}
{"id": "C117", "title": "Any mix of receivers: each datapoint is offered to the nearest", "statement": "With the cosine search, DistributeDataPoints of a centroid offers the datapoints DrainOrdered(n) chose, in that order, each to the receiver (centroid or manager) whose vector is most similar at that moment, the first of equals; a datapoint goes back to the giver only if that receiver refuses it or no receiver can be compared. DistributeDataPoints of a manager lets its centroids do so in turn, with portions fixed beforehand, and then recomputes its vectors.", "quantifier": "every set of consistent managers and centroids, giver, n, non-empty list of receivers, map order, monotone clock", "why_tests_cant": "the vectors compared change with each datapoint placed, also those of managers; a test sees a few placements", "anchors": ["pkg/kmeans/centroid/centroid.go:DistributeDataPoints", "pkg/kmeans/centroidmanager/cmanager.go:DistributeDataPoints", "pkg/searchutils/knn.go:KNNCos"]}
{"id": "C118", "title": "Lost replies: copies are bounded by the replies lost", "statement": "On any network, also one that loses replies after the request was handled: a client put (HTTP or the put clients, with the nodes in fixed, random or chosen order) adds at most one copy of the datapoint for its acknowledgement and one for each node of which a reply was lost, and harms nothing else; answered with a failure, every node was unreachable or unheard. A draining get loses at most n datapoints for each node of which a reply was lost, and nothing otherwise. DistributeDataPointsFast and -Accurate send the datapoints taken in turn to the chosen nodes until one is heard to acknowledge, add what nobody acknowledged to the giver again, lose only what a manager refused (with exact arithmetic: nothing, if there are addresses), and make at most one additional copy for each reply lost.", "quantifier": "every consistent state of all nodes, every pattern of unreachable nodes and lost replies, every order and random choice, monotone clock", "why_tests_cant": "needs a network that drops replies at chosen moments, and the state of all nodes afterwards; combinations of losses are endless", "anchors": ["core/dps/putdps.go:PutDataPointAccurate", "core/dps/getdps.go:GetDataPointsAccurate", "pkg/kmeans/rpc/server.go:DistributeDataPointsFast", "pkg/kmeans/rpc/server.go:DistributeDataPointsAccurate"]}
{"id": "C119", "title": "Lost replies: stealing loses at most one centroid, and says so", "statement": "StealCentroid on any network moves whole centroids and harms nothing else. If a reply with a centroid is lost, that one centroid (and no more) is gone from both nodes; then the answer is a failure, and the number it reports does not count it. Answered with success, every live datapoint of the two nodes is still there exactly once.", "quantifier": "every consistent state of all nodes, every pattern of unreachable nodes and lost replies, every limit, monotone clock", "why_tests_cant": "needs a reply lost at the moment a centroid is in it, and the state of both nodes afterwards", "anchors": ["pkg/kmeans/rpc/server.go:StealCentroid", "pkg/kmeans/rpc/server.go:NearestCentroids"]}
{"id": "C120", "title": "What lost replies cost the running service", "statement": "While the service runs (event loops, their tasks and goroutines, and arriving requests, interleaved in any way) every reply that the network loses costs at most one additional copy of one datapoint, or one answer with datapoints that was taken from a node and never arrived, counted over all namespaces together; nothing is lost, duplicated or invented beyond that. The bound on copies holds at any moment, without further hypotheses. The exact balance holds whenever everything is done, if searches find a nearest vector, nodes that distribute reach themselves and are among their RemoteAddrs, and no namespace was created twice at the same time; and answers are gone only if some job takes datapoints from another node (draining queries, stealing).", "quantifier": "every consistent state of all nodes, every list of valid jobs, every interleaving, every pattern of unreachable nodes and lost replies, monotone clock", "why_tests_cant": "needs every interleaving of all jobs combined with every choice of replies to lose, and the state of all nodes", "anchors": ["core/eventloop/el.go:EventLoop", "core/dps/putdps.go:PutDataPointAccurate", "core/dps/getdps.go:GetDataPointsAccurate", "pkg/kmeans/rpc/server.go:DistributeDataPointsFast", "pkg/kmeans/rpc/server.go:StealCentroid"]}
{"id": "C121", "title": "Only datapoints that a manager turns away are refused", "statement": "With float64 arithmetic as it is, where a search may find no centroid at all: while jobs of any kind or the whole service run, interleaved in any way, on a network that loses requests and replies, the only live datapoints that get lost beyond what lost replies cost (C120) are such that at some moment of the run a manager of their namespace turned them away, that is, had centroids but the computed cosine to every one of them was NaN or not above -MaxFloat64. A node that turns a datapoint away answers true and changes nothing. A datapoint with components that are finite, at most 2^500 and not all below 2^-480 is turned away only by managers whose centroids all have vectors outside of this range, e.g. zero.", "quantifier": "every consistent state of all nodes, every list of valid jobs that have somewhere to put what they take, every interleaving, every pattern of unreachable nodes and lost replies, monotone clock, any scalars with lawful comparison including float64", "why_tests_cant": "needs every interleaving of all jobs, the history of all managers, and float64 vectors whose means cancel out", "anchors": ["pkg/kmeans/centroidmanager/cmanager.go:AddDataPoint", "core/eventloop/el.go:EventLoop", "core/dps/putdps.go:PutDataPointAccurate", "pkg/kmeans/rpc/server.go:DistributeDataPointsFast", "pkg/kmeans/rpc/server.go:AddDataPoint"]}
{"id": "C122", "title": "Writing an answer does not bring the node down", "statement": "When a NearestCentroids request is answered, the encoder gets through to the end whatever other requests do meanwhile, so the node survives and the client gets what a centroid held.", "quantifier": "every history of calls, every history of calls by other requests before the encoder begins and between any two elements, every growth rule of append", "why_tests_cant": "race between the encoder and other requests", "anchors": ["pkg/kmeans/rpc/server.go:NearestCentroids", "pkg/kmeans/centroid/centroid.go:rmDataPoint", "pkg/kmeans/centroidmanager/cmanager.go:NearestCentroids"]}
{"id": "C123", "title": "A namespace of positive vectors takes every further positive vector", "statement": "If all datapoints that were ever added to a manager, in float64, have components between lo and hi with 0 < lo (as embeddings of non-negative features have), then AddDataPoint accepts and stores every live datapoint of the same kind and dimension: no centroid vector is ever zero or NaN.", "quantifier": "every history of manager calls, every datapoint, clock and drain order", "why_tests_cant": "the vector becomes zero only after a MemTrim and a drain in this order", "anchors": ["pkg/kmeans/centroidmanager/cmanager.go:AddDataPoint", "pkg/kmeans/centroid/centroid.go:MemTrim", "pkg/kmeans/centroid/centroid.go:rmDataPoint"]}
{"id": "C124", "title": "The centroid vectors of a manager never drift far from the means", "statement": "After every history of manager calls other than MemTrim, in float64, with components of magnitude at most M and N readings of the clock (8 N (N+2) at most 2^53; each put reads it), no component of any centroid vector is NaN or infinite and each is within 8 N (N+2) 2^-53 M / n of the exact mean of the n datapoints of its centroid: splitting, merging, redistributing and draining do not add to the error.", "quantifier": "every history, number of centroids, clock, predicate, map order and search keeping its contract", "why_tests_cant": "accumulated rounding over unbounded histories", "anchors": ["pkg/kmeans/centroidmanager/cmanager.go:SplitCentroids", "pkg/kmeans/centroidmanager/cmanager.go:MergeCentroids", "pkg/kmeans/centroidmanager/cmanager.go:DistributeDataPointsInternal", "pkg/kmeans/centroid/centroid.go:rmDataPoint"]}
{"id": "C125", "title": "MemTrim may be called as often as one likes", "statement": "MemTrim, called any number of times while no datapoint expires, changes neither the datapoints nor the vector of a centroid: a manager that was only trimmed accepts the datapoints that it would have accepted before.", "quantifier": "every centroid, number of calls, arithmetic and clock", "why_tests_cant": "one call looks harmless; it takes about a thousand to overflow, and every DistributeInternal in between hides it", "anchors": ["pkg/kmeans/centroid/centroid.go:MemTrim", "pkg/kmeans/centroid/centroid.go:rmDataPoint", "pkg/kmeans/centroidmanager/cmanager.go:MemTrim", "core/eventloop/eltask.go"]}
{"id": "C126", "title": "A query finds the most similar datapoint", "statement": "The first datapoint that a query answers is at least as similar to the query vector (cosine) as every datapoint stored in the namespace on the nodes asked.", "quantifier": "every state of the nodes, query vector, fast or accurate", "why_tests_cant": "the search goes to the nearest centroid only, and the datapoint that is missed lies in another one; a test that knows which one must be the answer needs the right configuration of centroids", "anchors": ["core/api/handler.go:queryDataPoint", "core/dps/getdps.go", "pkg/kmeans/centroidmanager/cmanager.go:KNNLookup"]}
{"id": "C127", "title": "KNNEuc finds the nearest and KFNEuc the farthest vectors", "statement": "KNNEuc answers the k vectors at the smallest Euclidean distance from the target, nearest first, and KFNEuc those at the largest, farthest first.", "quantifier": "every target, pool and k, in exact arithmetic", "why_tests_cant": "the sum of absolute differences orders most small examples as the Euclidean distance does", "anchors": ["pkg/searchutils/knn.go", "pkg/mathutils/distance.go:EuclideanDistance"]}
{"id": "C128", "title": "On vectors of equal norm similarity is nearness", "statement": "On a pool whose vectors of the target's dimension have equal norm, KNNCos answers the k vectors at the smallest Euclidean distance from the target, nearest first, and KFNCos those at the largest; vectors of other dimensions are left out, and the target may have any norm.", "quantifier": "every target, pool of one norm and k, in exact arithmetic", "why_tests_cant": "a statement about all targets on a sphere; zero targets and zero pools are the cases that examples leave out", "anchors": ["pkg/searchutils/knn.go", "pkg/mathutils/distance.go:CosineSimilarity"]}
{"id": "C129", "title": "A query without drain changes nothing", "statement": "While nothing expires, a query with drain=false leaves the managers of all nodes exactly as they were; asked again, it gives the same answer.", "quantifier": "every state of the nodes, query vector, number of datapoints, fast or accurate, messages lost at any point", "why_tests_cant": "the state of a node is not visible at the endpoint, and the disturbance of the manager vector is a rounding error that changes an answer only for particular magnitudes of the centroid vectors", "anchors": ["core/api/handler.go:queryDataPoint", "core/dps/getdps.go", "pkg/kmeans/centroidmanager/cmanager.go:KNNLookup", "pkg/kmeans/centroidmanager/cmanager.go:prepVecUpdate"]}
{"id": "C130", "title": "A maintenance call with nothing to do changes nothing", "statement": "Expire at a node where nothing is expired, MoveVector directly after MoveVector, SplitCentroids and MergeCentroids with a range in which no centroid lies leave the centroids, their datapoints and the vectors of the centroids and of the manager as they were.", "quantifier": "every state of a node, range of sizes and clock", "why_tests_cant": "that a call does nothing is seen only by comparing the whole state, and the disturbance of the manager vector by Expire is a rounding error that shows only for particular magnitudes of the centroid vectors", "anchors": ["pkg/kmeans/centroidmanager/cmanager.go:Expire", "pkg/kmeans/centroidmanager/cmanager.go:MoveVector", "pkg/kmeans/centroidmanager/cmanager.go:SplitCentroids", "pkg/kmeans/centroidmanager/cmanager.go:MergeCentroids", "pkg/kmeans/rpc/server.go"]}
{"id": "C131", "title": "Asking for more than there is makes no difference", "statement": "Any two queries for more datapoints than the nodes have of the namespace (datapoints and centroids counted together) that differ only in that number run alike: the same answer in the same order, the same effect on the nodes, the same messages. The same holds for one lookup at a node, and for a search with at least as many slots as candidates.", "quantifier": "every state of the nodes, query vector, fast or accurate, with and without drain, messages lost at any point, all pairs of such numbers", "why_tests_cant": "it relates pairs of runs for unboundedly many numbers; order among ties and the effect on expired datapoints would have to be compared too", "anchors": ["core/api/handler.go:queryDataPoint", "core/dps/getdps.go:getDataPoints", "pkg/kmeans/centroidmanager/cmanager.go:KNNLookup", "pkg/kmeans/centroid/centroid.go:KNNLookup", "pkg/searchutils/knn.go:KNNBrute", "pkg/searchutils/knn.go:bubble"]}
{"id": "C132", "title": "Every query is answered, whatever number of datapoints it asks for", "statement": "A query for any non-negative number of datapoints is answered, and a lookup over RPC with any such number leaves the node running, as long as memory suffices for what is stored.", "quantifier": "every state of the nodes, number of datapoints asked for, size of memory", "why_tests_cant": "the numbers for which an allocation fails are beyond what tests try, and the failure takes the process of the test along", "anchors": ["core/dps/getdps.go:20", "pkg/kmeans/rpc/client.go:KNNLookup", "pkg/kmeans/centroidmanager/cmanager.go:KNNLookup", "pkg/kmeans/centroid/centroid.go:KNNLookup", "pkg/searchutils/knn.go:89"]}
{"id": "C133", "title": "The answer of a query depends only on what the nodes hold", "statement": "If no message is lost and nothing expires, two runs of the same query at nodes that hold the same give the same answer, whenever they are asked and in whatever order the vectors of the nodes arrive. In particular a query without drain, asked again, has the same answer, and the same query with drain then hands out exactly that.", "quantifier": "every state of the nodes, query vector, count, fast or accurate, all orders of arrival of the answers of the nodes", "why_tests_cant": "it relates pairs of runs over all orders of arrival; a test sees the order its machine happens to produce", "anchors": ["core/nodes/vecs.go:fetchVecs", "core/nodes/nodes.go:bestFitNodes", "core/dps/getdps.go:getDataPoints", "core/api/handler.go:queryDataPoint", "pkg/searchutils/knn.go:KNNBrute"]}
{"id": "C134", "title": "Housekeeping does not make the clustering worse", "statement": "Measure a manager by the k-means cost: the squared distances between each centroid's vector and the vectors it holds, added up. Apart from accepting data and merging, no call raises the cost: not draining, expiring, looking up, moving vectors, splitting, trimming or redistributing. Accepting a datapoint raises it by at most n/(n+1) times the squared distance to the vector of the centroid that takes it, n being what that centroid holds.", "quantifier": "every history of calls on a manager, every call that follows, all vectors, all iteration orders of maps; the positive half in exact arithmetic", "why_tests_cant": "it is an inequality over real-valued sums after unbounded histories; tests check a few sums on a few datasets, and the project's tests do not look at the cost at all", "anchors": ["pkg/kmeans/centroidmanager/cmanager.go:MoveVector", "pkg/kmeans/centroidmanager/cmanager.go:SplitCentroids", "pkg/kmeans/centroidmanager/cmanager.go:DistributeDataPointsInternal", "pkg/kmeans/centroidmanager/cmanager.go:MemTrim", "pkg/kmeans/centroid/centroid.go:MoveVector"]}
{"id": "C135", "title": "The same data in other coordinates", "statement": "With the cosine searches the clustering does not depend on the coordinate system or the unit: when the vectors of all datapoints and queries are rotated, mirrored, permuted in their coordinates or multiplied by a common factor, every history of calls panics exactly when it did before, makes the same groups, accepts and hands out the same datapoints, and answers queries with the same payloads in the same order.", "quantifier": "all similarity transformations of vectors of every dimension, every history of calls on a manager, all map orders, all clocks; the positive half in exact arithmetic", "why_tests_cant": "it relates two runs on data related by a real-valued transformation, for histories of any length; a test would compare a few rotated datasets up to a tolerance and would miss ties", "anchors": ["pkg/mathutils/distance.go:CosineSimilarity", "pkg/searchutils/knn.go:KNNCos", "pkg/kmeans/centroidmanager/cmanager.go:KNNLookup", "pkg/kmeans/centroidmanager/cmanager.go:MergeCentroids", "pkg/kmeans/centroid/centroid.go:DistributeDataPoints"]}
{"id": "C136", "title": "The length of a query vector", "statement": "A query asks for a direction: the HTTP query for a positive multiple of a vector gives the same answer, has the same effect on all nodes and panics in the same cases as the query for the vector itself, fast or accurate, draining or not, whichever messages get lost; so do KNNLookup and NearestCentroids of a manager.", "quantifier": "all vectors, all positive factors, all states of all nodes, all orders of arrival, all patterns of lost messages, all clocks; the positive half in exact arithmetic", "why_tests_cant": "it compares two runs of a distributed query for infinitely many factors; tests use vectors of ordinary length, where the failing float64 cases (norms that overflow or vanish) do not occur", "anchors": ["pkg/mathutils/distance.go:CosineSimilarity", "pkg/searchutils/knn.go:KNNCos", "pkg/kmeans/centroidmanager/cmanager.go:KNNLookup", "pkg/kmeans/centroidmanager/cmanager.go:NearestCentroids"]}
{"id": "C137", "title": "Payloads are opaque", "statement": "The bytes of a payload are carried along and never looked at: if payloads are replaced everywhere, in what the nodes hold and in all requests, a service takes the same steps, panics in the same cases, moves the same datapoints to the same nodes and centroids and gives the same answers, with the replaced payloads. Someone who cannot see payloads cannot tell two services apart that differ in payloads only.", "quantifier": "all replacements of payloads, all states of all nodes, all sequences of HTTP and RPC requests, event loops and interleavings, all networks, clocks and configurations, any arithmetic", "why_tests_cant": "it relates two runs of the whole system for every possible pair of payloads and every schedule; a test compares a few payloads in one schedule", "anchors": ["pkg/kmeans/common/datapoint.go:DataPoint", "pkg/kmeans/rpc/server.go", "core/api/conv.go:toDataPoint", "core/api/conv.go:DataPointsToDPs", "core/eventloop/eltask.go"]}
{"id": "C138", "title": "Only the time that is left matters", "statement": "Instants are only compared with the clock: if all clocks and all expiries are moved by the same amount, or changed by any strictly monotone function, a service does exactly the same at the same moments; the expiry of a datapoint whose expiry is not enabled has no influence at all.", "quantifier": "all strictly monotone changes of time, all states of all nodes, all sequences of requests, event loops and interleavings, all networks, clocks and configurations, any arithmetic", "why_tests_cant": "it relates two runs of the whole system at different times; a test runs at one time, and a dependence on the absolute date shows only on that date", "anchors": ["pkg/kmeans/common/datapoint.go:Expired", "pkg/kmeans/centroid/centroid.go:Expire", "pkg/kmeans/centroid/centroid.go:KNNLookup", "core/eventloop/eltask.go:eltExpire"]}
{"id": "C139", "title": "The most similar datapoints come first", "statement": "The HTTP query lists datapoints in the order of decreasing similarity to the vector of the query.", "quantifier": "all vectors, all states of all nodes, all orders of arrival, all patterns of lost messages, all clocks, fast or accurate, draining or not", "why_tests_cant": "the order breaks only between centroids and between nodes, and so needs a history in which a centroid was divided and data that lies across; a test with a few well separated vectors sees sorted answers", "anchors": ["core/api/handler.go:queryDataPoint", "pkg/kmeans/centroidmanager/cmanager.go:KNNLookup", "pkg/kmeans/centroid/centroid.go:KNNLookup"]}
{"id": "C140", "title": "Storing more does not make answers worse", "statement": "The same HTTP query, asked when the nodes hold more datapoints, gives an answer that is at least as long and place by place at least as similar.", "quantifier": "all vectors and result sizes, all states of all nodes of which one holds what the other holds and more, all clocks, fast or accurate", "why_tests_cant": "it compares the answers of two states that are related by arbitrarily many writes; the failing case needs a put that makes a node divide its centroid just before the query", "anchors": ["core/api/handler.go:queryDataPoint", "pkg/kmeans/centroidmanager/cmanager.go:AddDataPoint", "pkg/kmeans/centroidmanager/cmanager.go:KNNLookup"]}
{"id": "C141", "title": "How often an HTTP request turns to a node", "statement": "An HTTP put is served with at most three requests to each node of the API's address list (for its vector, to store where the datapoint fits, to store anywhere), an HTTP query with at most two (for its vector, for datapoints); nodes that are not listed get none.", "quantifier": "all requests, all address lists (with repetitions counted), all states of all nodes, all interleavings with any other requests, event loops and tasks, all orders of arrival, all patterns of lost messages, all random numbers", "why_tests_cant": "the bound is about every interleaving and every pattern of lost replies; a retry that goes wrong shows only when replies get lost at the right moment", "anchors": ["core/api/handler.go:putDataPoint", "core/api/handler.go:queryDataPoint", "core/dps/putdps.go:putDataPoint", "core/dps/getdps.go:getDataPoints", "core/nodes/nodes.go:bestFitNodes"]}
{"id": "C142", "title": "Later queries do not notice maintenance that had nothing to do", "statement": "Expire, called while nothing has expired, leaves the node as it is, and answers to later queries are the same; MoveVector, called again at once, changes nothing.", "quantifier": "all states of a manager, all nodes and namespaces, all clocks", "why_tests_cant": "the change is one of rounding: it shows only with vectors of very different lengths, in the manager's vector, which decides whether a fast query asks the node at all", "anchors": ["pkg/kmeans/centroidmanager/cmanager.go:Expire", "pkg/kmeans/centroidmanager/cmanager.go:prepVecUpdate", "pkg/kmeans/centroidmanager/cmanager.go:MoveVector", "pkg/kmeans/centroid/centroid.go:MoveVector"]}
{"id": "C143", "title": "Names of nodes and of namespaces", "statement": "Addresses of nodes and names of namespaces are only compared for equality. If all nodes and all namespaces get other (different) names everywhere - on the nodes, in requests, in configurations - the service takes the same steps and ends in the same state but for the names; answers to requests and to HTTP puts and queries are the same.", "quantifier": "all renamings, all states of all nodes, all requests, tasks and event loops, all interleavings, all random numbers, all patterns of lost messages", "why_tests_cant": "a test uses a handful of names; code that sorts by name, prefers the local address or treats one name specially agrees with the tests unless they happen to use another name", "anchors": ["core/api/handler.go:putDataPoint", "core/api/handler.go:queryDataPoint", "core/eventloop/eltask.go", "core/eventloop/eltaskutils.go", "pkg/kmeans/rpc/server.go", "pkg/kmeans/rpc/client.go", "pkg/kmeans/rpc/serverutils.go"]}
{"id": "C144", "title": "Other namespaces play no part", "statement": "RPC requests, goroutines of the event loop and HTTP requests about a namespace are answered, and change that namespace, in the same way whatever the other namespaces hold and whatever is done to them at the same time: all that is left of jobs about other namespaces is that time passes.", "quantifier": "all jobs about any namespaces on any number of nodes, all interleavings, all contents of the other namespaces, all states of the nodes, all random numbers, all patterns of lost messages", "why_tests_cant": "a test compares a few runs with and without a second namespace; an influence through a shared slot, a wrong key or a lock that is dropped too early shows in rare interleavings only", "anchors": ["pkg/kmeans/rpc/rpc.go:Access", "pkg/kmeans/rpc/rpc.go:AddSlot", "pkg/kmeans/rpc/server.go", "core/api/handler.go:putDataPoint", "core/api/handler.go:queryDataPoint"]}
{"id": "C145", "title": "How often RPC requests and maintenance tasks turn to a node", "statement": "DistributeDataPointsFast for n datapoints turns to a node at most 1+n times for every occurrence in its address list, DistributeDataPointsAccurate at most 2n times, and both at most 1+n times more to the distributing node (0 counts as 1); StealCentroid turns to no node but its own and its source; every other request about a namespace, and every maintenance task of the event loop, turns at most once to its own node and to no other.", "quantifier": "all requests, counts and address lists, all interleavings with any other requests, event loops and tasks, all states of all nodes, all orders of arrival, all patterns of lost messages", "why_tests_cant": "the bound is about every interleaving and every pattern of lost replies, which decide whether datapoints are put back and where they are tried", "anchors": ["pkg/kmeans/rpc/server.go:DistributeDataPointsFast", "pkg/kmeans/rpc/server.go:DistributeDataPointsAccurate", "pkg/kmeans/rpc/server.go:StealCentroid", "pkg/kmeans/rpc/server.go:distributeDP", "core/eventloop/eltask.go:withLocalAddrNamespaces"]}
{"id": "C146", "title": "The order of puts does not matter", "statement": "The same datapoints put in another order give the same answers: a later query returns, place by place, datapoints of the same similarity.", "quantifier": "all lists of puts and all their permutations, all queries, all nodes and namespaces", "why_tests_cant": "a test puts its datapoints in one order; the order shows only after a centroid has been divided", "anchors": ["pkg/kmeans/centroidmanager/cmanager.go:AddDataPoint", "pkg/kmeans/centroidmanager/cmanager.go:splitCentroid", "core/api/handler.go:putDataPoint", "core/api/handler.go:queryDataPoint"]}
{"id": "C147", "title": "What a draining query took out can be put back", "statement": "All datapoints of a namespace are taken out with a draining query and put back: every put is answered with 200, and afterwards a query finds the same datapoints as before.", "quantifier": "all states, all queries that ask for enough, all orders of putting back, fast and accurate requests", "why_tests_cant": "a test that drains and puts back uses vectors of like size; datapoints are lost only if rounding makes the vector of an emptied centroid zero", "anchors": ["pkg/kmeans/centroid/centroid.go:rmDataPoint", "pkg/kmeans/centroid/centroid.go:KNNLookup", "pkg/kmeans/centroidmanager/cmanager.go:AddDataPoint", "pkg/kmeans/rpc/server.go:AddDataPoint", "core/api/handler.go:queryDataPoint", "core/api/handler.go:putDataPoint"]}
{"id": "C148", "title": "In float64, sessions of puts and queries lose nothing, whatever maintenance runs in between", "statement": "Nodes can be reached, no replies are lost, and one request runs at a time. Users put datapoints with positive components that are not too different and that do not expire, and query with or without drain. In between, nodes run the calls that event loops start, but MemTrim: Expire, DistributeDataPointsInternal, SplitCentroids and MergeCentroids; clients send such datapoints to nodes of their choice; and nodes are told to distribute datapoints between nodes, with DistributeDataPointsFast or DistributeDataPointsAccurate, and to steal centroids from each other, with StealCentroid; and clients drain nodes, with DrainOrdered or DrainUnordered, look for datapoints at nodes with KNNLookup, with or without drain, and take the nearest centroid of a node with NearestCentroids. Every request of a user is answered with 200; at any time, what is stored together with what draining queries, drains, draining lookups and taken centroids have handed over is what was put and sent, each datapoint once; and an accurate query that asks for enough finds everything that is stored.", "quantifier": "all sessions of fast and accurate puts and queries on one namespace or on many, each of its own dimension, that were not known before, all maintenance calls in between with any settings, all distributions between nodes to at least one address, all thefts between two different nodes, all drains and lookups, all centroids taken one at a time, all nodes, node counts and thresholds, all dimensions up to 2^20, all components between lo and hi with 16*N*(N+2)*hi <= 2^53*lo where N bounds the number of clock readings", "why_tests_cant": "every put and every drain moves a centroid vector by a rounded step; that no sequence of them brings a vector near zero, where datapoints are dropped, is a statement about the sum of all rounding errors", "anchors": ["pkg/kmeans/centroid/centroid.go:AddDataPoint", "pkg/kmeans/centroid/centroid.go:rmDataPoint", "pkg/kmeans/centroid/centroid.go:KNNLookup", "pkg/kmeans/centroidmanager/cmanager.go:AddDataPoint", "pkg/mathutils/vectools.go:VecMean", "pkg/kmeans/rpc/server.go:DistributeDataPointsFast", "pkg/kmeans/rpc/server.go:DistributeDataPointsAccurate", "pkg/kmeans/rpc/server.go:StealCentroid", "pkg/kmeans/centroidmanager/cmanager.go:DrainOrdered", "pkg/kmeans/centroidmanager/cmanager.go:DrainUnordered", "core/api/handler.go:putDataPoint", "core/api/handler.go:queryDataPoint"]}
{"id": "C149", "title": "In float64, no schedule of concurrent requests brings a centroid vector near zero", "statement": "Jobs run concurrently at any number of nodes, messages are lost at will, and all datapoints that are put have positive components that are not too different. As long as MemTrim is not called, at every moment every centroid vector of every node has components between half the least and twice the greatest that a datapoint may have, and so has every stored datapoint between the least and the greatest.", "quantifier": "all jobs but MemTrim, all schedules, all moments, all losses of requests and replies, all nodes, namespaces and dimensions, all components between lo and hi with 16*N*(N+2)*hi <= 2^53*lo where N bounds the number of clock readings", "why_tests_cant": "schedules of goroutines cannot be enumerated, and what is claimed is a bound on the rounding errors of all of them", "anchors": ["pkg/kmeans/centroid/centroid.go:AddDataPoint", "pkg/kmeans/centroid/centroid.go:rmDataPoint", "pkg/kmeans/rpc/rpc.go:Access", "pkg/kmeans/rpc/rpc.go:AddSlot", "pkg/kmeans/rpc/server.go:AddDataPoint", "core/api/handler.go:putDataPoint", "core/api/handler.go:queryDataPoint"]}
