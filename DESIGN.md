# Formal model of crunchypi/trypo in Lean 4

The model is in `lean/Verif`, the properties are in `properties.jsonl`, the status of each is in `MANIFEST.json`, the
tests of the theorems against wrong programs are in `seeded/LOG.jsonl`.

## Layout

| directory | content |
|---|---|
| `lean/Verif/Model/*` | executable model, function by function; every definition cites the Go file and lines |
| `lean/Verif/Spec/*` | small specifications (mean, k best, conservation of bags, histories, requests, jobs) that do not use the model's helper functions |
| `lean/Verif/Proofs/*` | helper lemmas, invariants, the program logics `Go.wp`, `Safe`, `SafeN` |
| `lean/Verif/Props/*` | the property theorems `Cxx_…`, with concrete examples beside them |

## Modelling decisions

- **Scalars.** All code is modelled over an arbitrary scalar type `F` with the operations of `float64` (class `GoFloat`, no
  laws). Theorems about data (conservation, counts, panics, locks) hold for every such type, hence for IEEE arithmetic
  with whatever rounding. Theorems about searches assume only the laws of IEEE comparison (`LawfulCmp`: `<` is irreflexive,
  transitive, co-transitive on non-NaN values …), proved for both instances. Instances: `F64` (`Model/F64.lean`), an
  executable exact model of IEEE binary64 (round to nearest even, subnormals, infinities, NaN, signed zero, correctly
  rounded square root), used for counterexamples, examples and the error bounds C68-C72. That its rounding is that of IEEE
  is itself proved: `roundMag_nearest` (the result is representable and no representable number is nearer), `roundMag_exact`,
  `add_err` … `sqrt_err` (`Proofs/F64Round.lean`). And `ℝ` (`Model/RealFloat.lean`), used where a property says
  "in exact arithmetic". Caveat: over `ℝ` Lean has x/0 = 0, so the cosine similarity with a zero vector is 0 there whereas
  it is NaN in Go. C05 is about exactly that difference; theorems that need "the search finds something" state it
  as a hypothesis (`AlwaysFinds`), which is shown over `ℝ`.
- **Panics are values.** `Go α = Nat → Except Panic (α × Nat)`. Index errors, negative `make`, modulus by zero and nil
  dereferences are `Panic`s. "Never panics" is therefore a theorem (C10, C22, C61), and "returns normally" is part of every
  theorem of the form `∃ r p', f p = .ok (r, p') ∧ …`. Not modelled: running out of memory, `make` with a length that is too
  large, and overflow of `int` (64 bits; all `int`s are unbounded integers).
- **Clock.** `time.Now()` reads a stream `tk : Nat → Int`; the `Nat` in `Go` is the position in it and advances with each
  reading, so time may pass between any two readings inside one operation. `MonoClock` (time never runs backwards) is assumed
  where needed. In a concurrent run all operations read the same stream in the order in which their critical sections are
  executed; overlapping critical sections of different slots therefore cannot read the clock in an interleaved way.
- **Slices** are lists; for the slices of datapoints in centroids this is proved right (C73). The vector helpers allocate new slices and no code writes into a vector, so sharing of vectors is
  unobservable. nil and empty slices are identified, except where the code distinguishes them.
- **Centroid pointers.** A manager is a list of centroids. Receivers in `DistributeDataPoints` are positions in a heap, so
  that the aliasing that occurs in the code (a centroid that is its own receiver, the same receiver twice) is modelled.
- **Iteration order of Go maps** is a parameter: any permutation (`env.perm`).
- **Random numbers** are a parameter: any numbers in the range (`env.rand`).
- **Network.** A remote call is: not delivered, or executed and then the reply is lost, or executed and answered; an
  arbitrary oracle decides (`env.up`, `env.back`). A delivered request is executed completely before its caller
  learns whether the reply arrived. Encoding by gob/JSON, TCP, net/rpc and net/http are not modelled; a value that is sent
  arrives unchanged (functions in a gob-encoded centroid are lost: that is modelled by `reinit`).
- **The world.** One table namespace → slot per node (`World.table`) and a heap of slots, each with a manager. A slot that was
  replaced stays in the heap as an orphan, as in Go, where requests that have already looked it up keep a pointer to it.
- **Programs.** A server method is a `Prog`: a tree of atomic actions on the world (look up a slot, run a function under the
  slot's lock, add a slot, local computation). `Prog.run` executes it alone; `Pool` (`Model/System.lean`) interleaves any number of
  programs action by action in any order. `Model/Locks.lean` is a finer machine with the three kinds of mutex operation of the code,
  where critical sections are not atomic; C41_atomic shows that they behave as if they were.
- **Goroutines** started by the event loop are members of the pool of jobs from the beginning (`Spec/Jobs.lean`): the pool may start
  them at any time, which includes every time at which the code could start them. Calls that `fetchVecs` makes concurrently are
  made one after another in an arbitrary order (they read only).
- **Loops** without a structurally decreasing argument get a fuel argument in the model, which the caller chooses large enough;
  C64 proves of each that the loop without fuel ends with exactly the result of the function with fuel.

## What is modelled

| Go code | Lean |
|---|---|
| `pkg/mathutils/distance.go`, `vectools.go` | `Model/MathUtils.lean`; on arrays `Model/Arrays.lean` |
| `pkg/searchutils/knn.go` | `Model/KNN.lean`; on arrays `Model/Arrays.lean` |
| `pkg/kmeans/common/datapoint.go` | `Model/DataPoint.lean` |
| `pkg/kmeans/centroid/centroid.go` | `Model/Centroid.lean`; on slices with their arrays `Model/Slice.lean` |
| `pkg/kmeans/centroidmanager/cmanager.go` | `Model/Manager.lean` |
| `DistributeDataPoints` with any receivers | `Model/Receivers.lean` |
| `pkg/kmeans/rpc/rpc.go` (table, slots, locks), `server.go`, `serverutils.go`, `client.go` | `Model/System.lean`, `Model/Server.lean`, `Model/Locks.lean` |
| `pkg/kmeans/rpc/rpc.go` (`StartListen`) | `Model/Listen.lean` |
| the encoding of a reply with pointers to centroids | `Spec/Slice.lean` (a copy of the slice), `Spec/Encoder.lean` (as encoding/gob does it) |
| `pkg/arbiter/arbiter.go` (`ArbErrs`, `ArbStats`) | `Model/Arbiter.lean` |
| `core/nodes/*`, `core/dps/*`, `core/api/conv.go`, `handler.go` | `Model/Core.lean`, `Model/Http.lean` (panics of handlers), `Model/Json.lean` (the body of an answer) |
| what a query allocates (`core/dps/getdps.go`, `KNNLookup`, `KNNBrute`) | `Model/Memory.lean` |
| `core/api/api.go`, `cmd/service/service.go` | `Model/Process.lean` (starting), `Model/Service.lean` (running) |
| `core/eventloop/cfg.go`, `el.go`, `eltask.go`, `eltaskutils.go` | `Model/EventLoop.lean`, `Model/Tasks.lean`, `Model/Restart.lean` (several loops with one configuration) |
| `core/eventloop/log.go` | `Model/Logger.lean` |
| `core/testutils/network.go` | `Model/TestNet.lean` |

## What is not modelled

- The Go runtime, the memory model below the level of mutex-protected critical sections, TCP, net/rpc, net/http, the format of JSON and gob.
  `encoding/json` and `encoding/gob` are assumed to round-trip (what `encoding/json` cannot encode: C93).
- `pkg/arbiter` apart from its map helpers (the wrapper around go-narb).
- Data races that need two unsynchronised memory accesses to be visible: `cfg.internal.stopped` is written by `Stop` and read by the loop
  without synchronisation (modelled as an atomic flag); `NearestCentroids(drain=false)` of the server hands live centroid
  pointers to the encoder after its lock was released: in the model of the system the reply is encoded under the lock (no code in the repository
  calls it remotely with drain=false); what the race does is the subject of C79 and C122.
- A panic in an RPC method ends the whole process; it is modelled as a panic of the program that runs it, and C61 shows that there is none. This does
  not include the panics of the encoder that C122 shows.
- Memory is unlimited: `make` fails for negative counts only (C80, C101). In Go it also panics for counts beyond 2^48 bytes, and the process ends
  (this cannot be recovered) if memory runs out. `Model/Memory.lean` has the functions on the way of a query with limited memory (C132); the
  statements about crashes (C61, C80, C101) are about counts that memory suffices for.
- `CManagerTable.Reset` (used by tests only), all `_test.go` files.

## Trusted base

- Lean 4.33.0's kernel, and Mathlib 4.33.0's definitions where a statement uses them (`ℝ`, `List.Perm`, …).
- The axioms `propext`, `Classical.choice`, `Quot.sound`, and no others; the list per theorem is below. No `sorry`, no
  `native_decide`, no `bv_decide`, no axioms of our own.
- The reading of the Go source that is recorded in the comments of the model, and the modelling decisions above.

## Where the code violates a property

Each of these is refuted in Lean by a concrete run of the model (named theorem) and recorded here as a finding about the code.

| property | what happens | theorem |
|---|---|---|
| C03 | `EuclideanDistance` takes the root of each squared difference and adds these up: it is the L1 distance. (0,0) to (3,4) is 7 | `C03_refuted`, `C03_refuted_f64` |
| C05 | one zero vector gives 0/0 = NaN; also underflow and overflow of the norms | `C05_refuted`, `C05_refuted_underflow`, `C05_refuted_overflow` |
| C13 | `Centroid.MemTrim` subtracts expired datapoints from the vector with the wrong weights | `C13_memTrim_refuted` |
| C23 | the manager's vector is wrong after an automatic split, `MemTrim`, `SplitCentroids`, `MergeCentroids` | `C23_refuted_*` |
| C25 | `DrainUnordered(0)` drains one datapoint | `C25_refuted` |
| C32 | `KNNLookup` looks only into the k nearest centroids, even if they are empty | `C32_refuted` |
| C33 | draining the last centroid divides the manager's vector by 0 | `C33_refuted` |
| C35, C48 | a datapoint that the manager refuses is acknowledged with true, and with 200 | `C35_refuted`, `C48_refuted` |
| C36, C60 | datapoints drained for distribution are lost: acknowledged but refused; no address to send to; a failed `Namespaces` call; `RemoteAddrs` without `LocalAddr`. A lost reply duplicates them | `C36_refuted_*`, `C60_refuted*` |
| C38 | an empty nearest centroid ends `StealCentroid` with `TransferredN=0, OK=true` | `C38_refuted` |
| C39 | two adjacent empty centroids make the client's filter loop panic | `C39_refuted` |
| C41 | distribution and stealing are not atomic: a concurrent `LenDP` sees datapoints missing | `C41_refuted` |
| C42 | two requests that create the same namespace at once: one replaces the other's slot and its datapoint is lost | `C42_refuted` |
| C45 | a lost reply to a draining lookup loses the datapoints | `C45_refuted` |
| C51 | the interval of `Meta` is not clamped; 0 crashes the process | `C51_refuted` |
| C52 | an interval above 1000 is clamped to 1000, and the task runs at ticks 0 and 1000 | `C52_refuted` |
| C74 | `Centroid.MemTrim` says it makes capacity equal length; it appends to an empty slice, and 3 datapoints get capacity 4 | `C74_refuted` |
| C76 | `stop` closes the listener and the connection accepted last; the others are served on. If the accept loop notices the closed listener first, not even that one is closed | `C76_refuted`, `C76_refuted_single` |
| C77 | `stop` tests `conn != nil` and calls `conn.Close()`; between the two the accept loop sets the shared variable to nil | `C77_refuted` |
| C78 | the accept loop returns on any error of `Accept`, also a passing one | `C78_refuted` |
| C79 | `NearestCentroids` puts pointers in the reply; net/rpc encodes them after the namespace's lock is released. A concurrent drain shifts the datapoints under the encoder: 1 2 3 arrives as 1 3 3 | `C79_refuted` |
| C80 | counts of requests reach `make` unchecked; net/rpc does not recover from panics, so an RPC that looks up -1 neighbours ends the process | `C80_refuted` |
| C82 | `StealCentroid` reads the vector of the namespace, then appends what it gets for it; an `AddDataPoint` of another dimension in between mixes dimensions, and the next one leaves a vector of length 0 | `C82_refuted` |
| C90 | the default logger shows a node that it cannot reach as a node with nothing stored, and shows no task at all if `RemoteAddrs` does not include `LocalAddr` | `C90_refuted`, `C90_refuted_config` |
| C91 | the stop flag and the iteration count are in the configuration: a loop that is started with the configuration of a stopped one never does anything; stopping one stops all; two loops count together, so that one of them may never run a task | `C91_refuted_restart`, `C91_refuted_stop`, `C91_refuted_turns` |
| C93 | the error of `json.Marshal` is ignored: a query that finds a datapoint with an expiry after the year 9999 (added over RPC) is answered with 200 and an empty body; with `drain`, all datapoints it found are gone | `C93_refuted` |
| C94 | load balancing moves whole centroids: when one centroid has more datapoints than the margins allow, two nodes hand it back and forth for ever, in every run of the task | `C94_refuted` |
| C95 | when the last centroid of a node is fetched by another node, the vector of its namespace becomes the mean of no vectors (NaN); from then on its own load balancing finds no centroid and it never gets datapoints back | `C95_refuted` |
| C96 | `EventLoop` accepts a negative `DistributeDataPointsFastN` or `DistributeDataPointsAccurateN` and interval 0 for `Meta`; the process crashes when the task has its turn, although main relies on a panic at the start | `C96_refuted` |
| C97 | `api.Start` registers its routes in the mux of the process: a second call, or a new attempt after the address was in use, panics; of two calls at the same time both may panic | `C97_refuted`, `C97_refuted_retry`, `C97_refuted_both` |
| C99 | `TNetwork.Stop` stops nothing: `StartListen` sets the stop function of a copy of the node; the addresses stay taken | `C99_refuted_stop`, `C99_refuted_again` |
| C108 | `DistributeDataPoints` takes datapoints out before it compares them: with (1,1), (3,-1) at one centroid and (-1,4) at another, all at their nearest, (1,1) is moved | `C108_refuted` |
| C109 | After adding (-1,-2), (-1,2), (2,0), (-2,0) with a threshold of 3, every `DistributeDataPointsInternal(4)` moves a datapoint: they go from two and two to one and three and back, for ever | `C109_refuted` |
| C110 | With an empty centroid at the first node, a query for one datapoint answers (0,1), a query for two answers (1,2), (0,1) | `C110_refuted` |
| C111 | Of (0,1), (0,2), (1,0) the two nearest to (1,0) are the third and the second, though the first and the second are equally near | `C111_refuted` |
| C113 | Merging centroids with fewer than three: (1,0) takes (1,-2), its vector is then (1,-1), and takes (0,1) next, although (-1,-1) is nearer | `C113_refuted` |
| C122 | the encoder of a reply reads `Centroid.DataPoints` while others change it: it asks for the length, and then for each element; if another request drains the centroid in between, it panics, and the process ends. It takes a `NearestCentroids` without draining | `C122_refuted` |
| C123 | a namespace that only ever got vectors of positive components comes to refuse them, while puts are answered with 200: `MemTrim` followed by a draining query leaves a zero centroid vector | `C123_refuted` |
| C125 | each `MemTrim` multiplies the error of the vector of a centroid by the number of its datapoints; called often enough between two `DistributeInternal`, the vector overflows and puts are refused | `C125_refuted`, `C125_law` |
| C126 | a query can miss the most similar datapoint, even if it is equal to the query vector: only the nearest centroids are looked at | `C126_refuted` |
| C127 | `KNNEuc` does not find the nearest vector (consequence of C03) | `C127_refuted` |
| C129 | a query without `drain` changes the manager's vector: `KNNLookup` runs `prepVecUpdate` also when it changes nothing, and subtracting and adding a large centroid vector cancels the sum. The same query asked twice then answers differently | `C129_refuted` |
| C130 | `Expire` with nothing expired can change the manager's vector, for the same reason as C129: it takes every centroid vector out of the sum and puts it back, with rounding | `C130_refuted` |
| C132 | every function on the way of a query makes a slice of as many elements as the query asks for, however few are stored: a query for 2^62 datapoints makes the handler panic, over RPC it ends the process of the node; with less memory smaller numbers suffice | `C132_refuted`, `C132_refuted_rpc` |
| C133 | nodes that are equally similar to a query are asked in the order in which their vectors happened to arrive: the same query at unchanged nodes gives different datapoints from one time to the next | `C133_refuted` |
| C134 | `DistributeDataPointsInternal` compares a datapoint with what remains of its centroid after it has been taken out, and by angle only: it can pull a tight group apart and raise the k-means cost from 4 to 294; `MemTrim` leaves centroid vectors away from the mean | `C134_refuted_distribute`, `C134_refuted_memTrim` |
| C135 | cosine scores are sums whose float64 value depends on the order of the coordinates: the nearest datapoint can change when all vectors are given with their coordinates in another order | `C135_refuted` |
| C136 | the norm in CosineSimilarity overflows for vectors longer than about 2^512: all similarities become 0, and a query for such a vector is answered with whatever comes first | `C136_refuted` |
| C139 | answers are put together centroid by centroid and node by node and are not sorted, so that a datapoint can be listed before a more similar one | `C139_refuted` |
| C140 | a put that makes a node divide its centroid can make answers worse: the best match is no longer in the centroid that is searched | `C140_refuted` |
| C142 | an Expire with nothing to remove changes the manager's vector by rounding, up to making it the zero vector, after which fast queries pass the node over | `C142_refuted` |
| C146 | AddDataPoint divides a full centroid by taking its oldest datapoints, whatever their vectors; after the same puts in another order the best answer to the same query is another one | `C146_refuted` |
| C147 | a centroid that has been emptied keeps a vector that rounding can make zero; then no datapoint is similar to it, and puts are answered with 200 and dropped | `C147_refuted` |

Further observations that are not refutations of a listed property: errors of
`fetchRemoteLenDPs` are not propagated, an unreachable node counts as empty; `StealCentroid` may exceed its limit by almost a whole
centroid (C37 states the exact bound); a node stealing from itself counts the same datapoint again and again (`C37_self_steal`).

## Per property

### C01 VecMean is the arithmetic mean

`Model/MathUtils.lean: vecMean` over the list of vectors that the generator yields. Flag and shape for every scalar type, the value over `ℝ` against `Spec.mean`; induction on the list.

Status: proved. Flag/shape for every scalar type, value over the reals.

Theorems (axioms): `C01_vecMean_flag` (propext, Quot.sound); `C01_vecMean_mean` (all three).

### C02 EuclideanDistance is a metric and rejects mismatched lengths

`euclideanDistance` with its early exit on a length mismatch; failure for every scalar type, the metric laws over `ℝ` by induction on the vectors.

Status: proved.

Theorems (axioms): `C02_euclid_fails_iff` (propext); `C02_euclid_metric` (all three).

### C03 EuclideanDistance returns the Euclidean distance

Refuted at `F64` and over `ℝ`. Proved instead: between the Euclidean distance and √n times it, equal in dimension ≤ 1.

Status: partial. False of the code: it computes the L1 distance; refuted with witness (0,0),(3,4); proved: bounds, and equality in dimension <= 1.

Theorems (axioms): `C03_refuted_f64` (none); `C03_refuted` (all three); `C03_partial` (all three).

### C04 CosineSimilarity is a bounded, symmetric, scale-invariant similarity

`cosineSimilarity`; over `ℝ` by the Cauchy–Schwarz inequality on lists.

Status: proved.

Theorems (axioms): `C04_cos_fails_iff` (propext); `C04_cos_similarity` (all three); `C04_cos_zero` (all three).

### C05 CosineSimilarity never returns NaN on finite vectors

Refuted at `F64` by evaluating the soft float. Proved instead: what does hold.

Status: partial. False of the code: one zero vector gives NaN; also underflow and overflow.

Theorems (axioms): `C05_refuted` (propext, Quot.sound); `C05_refuted_underflow` (propext); `C05_refuted_overflow` (propext); `C05_partial` (propext); `C05_special_values` (propext).

### C06 A KNN search returns exactly min(k, number of comparable candidates) distinct valid indexes

`Model/KNN.lean`: `knnBrute` with its array of slots and the `bubble` insertion loop. Spec: `Spec.KBest` (`Spec/Search.lean`), which mentions neither. Invariant over the pool: the slots are the k best of the prefix, for every scalar type with IEEE comparison.

Status: proved.

Theorems (axioms): `C06_C07_knnBrute_kbest` (all three); `C06_prefabs_kbest` (all three).

### C07 A KNN search returns the k best, best first

Same theorem: `KBest.sorted`, `KBest.best`.

Status: proved.

Theorems (axioms): `C06_C07_knnBrute_kbest` (all three); `C06_prefabs_kbest` (all three).

### C08 Incomparable candidates never influence a KNN search

Filter lemma by induction on the pool, `Spec.positions` for the re-indexing.

Status: proved.

Theorems (axioms): `C08_knn_ignores_incomparable` (all three).

### C09 KNN results do not depend on pool order, up to ties

Two sorted permutations have the same scores.

Status: proved.

Theorems (axioms): `C09_knn_order_independent` (all three).

### C10 A KNN search panics exactly on negative k

`Go` makes the panic of `make` a value.

Status: proved.

Theorems (axioms): `C10_knn_panics_iff` (propext, Quot.sound).

### C11 Centroid.AddDataPoint accepts exactly live datapoints of the right dimension

`Centroid.addDataPoint`, with its clock reading.

Status: proved.

Theorems (axioms): `C11_addDataPoint` (propext, Quot.sound).

### C12 A centroid's vector is the mean of its datapoints

Histories `Spec/CentroidHistory.lean`; invariant `len · vec = sum` over `ℝ`, with `DistributeDataPoints` between any number of centroids.

Status: proved. Over the reals, every history, also with DistributeDataPoints between any number of centroids.

Theorems (axioms): `C12_vec_is_mean` (all three).

### C13 Centroid.MemTrim keeps the centroid intact

Refutation by evaluation. The data part is proved.

Status: partial. False of the code: MemTrim ruins the vector (witness with vector 2 -> 3); proved: the data part; C105 says what the vector is instead.

Theorems (axioms): `C13_memTrim_refuted` (all three); `C13_memTrim_partial` (all three).

### C14 Centroid.DrainUnordered returns min(n, live) live datapoints and removes exactly those and expired ones

Loop induction; the clock ticks inside the loop, so 'live' is stated at the times at which the code looks.

Status: proved.

Theorems (axioms): `C14_drainUnordered` (all three); `C14_drainUnordered_exact` (all three).

### C15 Centroid.DrainOrdered removes the n furthest datapoints

The generator skips expired datapoints; `SearchContract` (distinct indexes in range, at most k) is what is assumed of a search, proved for the library's; removal of sorted indexes. Optimality from C07.

Status: proved.

Theorems (axioms): `C15_drainOrdered` (all three); `C15_drainOrdered_furthest` (all three).

### C16 Centroid.Expire removes exactly the expired datapoints

Loop induction; `Spec.Survivors`.

Status: proved.

Theorems (axioms): `C16_expire` (all three).

### C17 Centroid.KNNLookup returns the k best live datapoints and drains exactly what it returns

As C15.

Status: proved.

Theorems (axioms): `C17_knnLookup` (all three); `C17_knnLookup_best` (all three).

### C18 Centroid.DistributeDataPoints never loses or duplicates a live datapoint

Heap of centroids; receivers are indexes and may repeat or be the giver. Conservation as bags: `Spec.Conserved`.

Status: proved. Receivers are centroids.

Theorems (axioms): `C18_distribute` (all three); `C18_history_conserves` (all three).

### C19 Dimensions stay consistent

Invariant `ManagerOK` over all histories.

Status: proved.

Theorems (axioms): `C19_centroid_dimensions` (all three); `C19_manager_consistent` (all three).

### C20 CentroidManager.AddDataPoint stores exactly when it says so

Case analysis of `AddDataPoint` including the automatic split.

Status: proved.

Theorems (axioms): `C20_addDataPoint` (all three); `C20_addDataPoint_exact` (all three); `C20_addDataPoint_accepts` (all three).

### C21 A manager is a bag of live datapoints

`Spec/ManagerHistory.lean` is the list of API calls; each call satisfies `Conserved`, then induction over the history.

Status: proved. Every history, every search keeping the search contract (proved for the library searches).

Theorems (axioms): `C21_manager_is_a_bag` (all three).

### C22 Manager operations never panic on non-negative counts

Total-correctness triples `Go.wp` for each operation, then induction.

Status: proved. Caller predicates are pure functions.

Theorems (axioms): `C22_manager_never_panics` (all three).

### C23 Manager.Vec is the mean of its centroids' vectors

Refutations by evaluation for each operation that breaks it; invariant over `ℝ` for the others.

Status: partial. False of the code after a split, MemTrim and MergeCentroids (witnesses); proved over the reals for histories without these; C105 says what Vec is after splits and MemTrim.

Theorems (axioms): `C23_refuted_add` (propext, Quot.sound); `C23_refuted_memTrim` (propext, Quot.sound); `C23_refuted_split` (propext, Quot.sound); `C23_refuted_merge` (propext, Quot.sound); `C23_partial` (all three).

### C24 MoveVector repairs every vector

Over `ℝ`, from any state.

Status: proved. Over the reals.

Theorems (axioms): `C24_moveVector` (all three).

### C25 Draining a manager takes at most n datapoints

Refuted for n = 0; exact count for n ≥ 1.

Status: partial. False of the code for n=0 (a datapoint is drained); proved for n>=1, and at most 1 for n=0.

Theorems (axioms): `C25_refuted` (propext, Quot.sound); `C25_drain_partial` (all three); `C25_drain_zero_partial` (all three); `C25_C26_drainUnordered_exact` (all three).

### C26 Draining load is spread evenly over centroids

`portionsLoop`, round-robin; invariant in `Proofs/Portions.lean`.

Status: proved.

Theorems (axioms): `C26_portions` (all three); `C25_C26_drainUnordered_exact` (all three).

### C27 Splitting preserves data and halves centroids

Loop induction over the centroids.

Status: proved.

Theorems (axioms): `C27_splitCentroids` (all three).

### C28 Auto-split bounds centroid size

Invariant over histories.

Status: proved.

Theorems (axioms): `C28_sizes_bounded` (all three); `C28_small_threshold_never_splits` (all three).

### C29 Merging preserves data, keeps at least one centroid and meets its goal

Loop invariant with deletion marks; 'comparable' is `FindsAll` of the search, shown for `KNNCos` over `ℝ`.

Status: proved. 'comparable centroids' is FindsAll of the search, shown for KNNCos over the reals.

Theorems (axioms): `C29_mergeCentroids` (all three); `C29_merge_all` (all three); `C29_merge_small` (all three); `C29_knnCos_findsAll` (all three).

### C30 Internal redistribution never loses data

C18 over the portion map in any order.

Status: proved.

Theorems (axioms): `C30_distributeInternal` (all three); `C30_distribute` (all three).

### C31 Manager.KNNLookup returns at most k, drains exactly the result, otherwise reads only

Composition of C06 and C17.

Status: proved.

Theorems (axioms): `C31_knnLookup` (all three); `C31_surplus` (all three); `C31_stops` (propext).

### C32 Manager.KNNLookup finds k datapoints when k are stored

Refuted; the exact number returned is proved, and the claim when there are at most k centroids.

Status: partial. False of the code: only the k nearest centroids are looked at, even if empty (witness); proved: the exact number returned, and the claim when there are at most k centroids.

Theorems (axioms): `C32_refuted` (propext, Quot.sound); `C32_knnLookup_partial` (all three); `C32_knnLookup_complete_partial` (all three).

### C33 NearestCentroids with drain removes exactly the returned centroids and leaves a sane vector

Data part in full; vector part over `ℝ` except for the last centroid, where it is refuted at `F64`.

Status: partial. Vector part false of the code when the last centroid is drained (0/0, witness); data part proved in full, vector part over the reals for the remaining centroids.

Theorems (axioms): `C33_refuted` (propext, Quot.sound); `C33_nearestCentroids_data_partial` (all three); `C33_nearestCentroids_vec_partial` (all three).

### C34 Namespaces are isolated and missing ones are reported

World of nodes; frame property of each request in the program logic.

Status: proved.

Theorems (axioms): `C34_isolation` (all three); `C34_missing` (propext, Quot.sound); `C34_add_creates` (all three).

### C35 An acknowledged AddDataPoint is stored

Refuted at `F64`; stored-or-unchanged for every scalar type; stored over `ℝ`.

Status: partial. False of the code: the answer is true although the datapoint was refused (witness with NaN cosine); proved: AddDataPoint stores the datapoint or changes nothing, and over the reals a live datapoint of the right dimension is stored.

Theorems (axioms): `C35_refuted` (propext, Quot.sound); `C35_add_partial` (all three); `C35_add_exact_partial` (all three).

### C36 Cross-node distribution neither loses nor duplicates datapoints

`Safe` (`Proofs/Safe.lean`) is a program logic with bags: `H` what the program holds in its hands, `M` what it brought; an invariant `Conserved` relates them to what is stored. Each request is proved `Safe`, the pool theorem lifts it to every interleaving (`Proofs/Pool.lean`).

Status: partial. False of the code in several ways (witnesses: a refused but acknowledged datapoint, nowhere to distribute to, a lost reply); proved for any interleaving of requests when no reply is lost and namespaces are established.

Theorems (axioms): `C36_refuted_refused` (propext, Quot.sound); `C36_refuted_nowhere` (propext, Quot.sound); `C36_refuted_nowhere_accurate` (propext, Quot.sound); `C36_refuted_lost_reply` (propext, Quot.sound); `C36_system_conserves_partial` (all three); `C36_nothing_lost_partial` (all three).

### C37 Stealing centroids conserves data and reports the amount moved

Two nodes, run alone, loop invariant of the stealing loop; the source may be any other node.

Status: proved. When no reply is lost and source and thief differ; C37_self_steal shows what a node stealing from itself reports.

Theorems (axioms): `C37_steal` (all three).

### C38 StealCentroid's answer means what its documentation says

From C37's stopping condition.

Status: partial. False of the code when the nearest remote centroid is empty (witness); proved when no remote centroid is empty and the search always finds something (shown for KNNCos over the reals).

Theorems (axioms): `C38_refuted` (propext, Quot.sound); `C38_partial` (all three).

### C39 Client NearestCentroids returns only usable centroids and never panics

The client's filter loop is modelled with its index arithmetic.

Status: partial. False of the code: two adjacent empty centroids make the client panic with an index error (witness); proved when no two adjacent centroids are empty.

Theorems (axioms): `C39_refuted` (propext, Quot.sound); `C39_unpack_partial` (all three).

### C40 Namespaces and Meta report the truth

Direct, with any map order.

Status: proved.

Theorems (axioms): `C40_namespaces` (all three); `C40_meta` (all three).

### C41 Concurrent requests on an existing namespace are linearizable

Two layers: (1) a machine with table mutexes and slot mutexes where critical sections take many steps; its runs are simulated by runs with atomic sections (C41_atomic*). (2) Requests with one access linearize at that access (`Proofs/Linear.lean`).

Status: partial. Proved for requests with one access to an existing namespace; false for DistributeDataPoints* and StealCentroid, which access a namespace several times (witness). Critical sections are atomic: proved on a machine with mutexes.

Theorems (axioms): `C41_linearizable_partial` (all three); `C41_small_steps_partial` (all three); `C41_refuted` (propext, Quot.sound); `C41_atomic` (propext, Quot.sound); `C41_atomic_done` (propext, Quot.sound); `C41_atomic_complete` (propext, Quot.sound).

### C42 Concurrent first inserts into a new namespace are all kept

Refuted by a schedule of the pool; established namespaces: from the pool theorem.

Status: partial. False of the code when two requests create the same namespace at once (witness); proved for established namespaces.

Theorems (axioms): `C42_refuted` (propext, Quot.sound); `C42_concurrent_adds_partial` (all three).

### C43 The server never deadlocks

On the mutex machine: no thread holds one lock while waiting for another, some thread can always move, and every run is finite.

Status: proved.

Theorems (axioms): `C43_one_lock` (propext); `C43_no_deadlock` (propext, Quot.sound); `C43_all_return` (all three); `C43_served` (all three).

### C44 Best-fit node selection is correct for every arrival order

Answers arrive in any order; the search is any that finds the best.

Status: proved. Any search that finds the best; shown for KNNCos.

Theorems (axioms): `C44_bestFit_fast` (all three); `C44_bestFit_accurate` (all three).

### C45 A query returns at most n datapoints and drains exactly what it returns

Induction over the nodes asked; refuted under a lost reply.

Status: partial. False of the code when a reply to a draining lookup is lost (witness); the draining part is proved when no reply is lost, the rest without that hypothesis.

Theorems (axioms): `C45_refuted` (propext); `C45_get_partial` (all three); `C45_getRand_partial` (all three); `C45_getFast_partial` (all three); `C45_getAccurate_partial` (all three); `C45_query_partial` (all three).

### C46 A put stores on at most one node

Induction over the nodes tried.

Status: proved. When no reply is lost, as stated.

Theorems (axioms): `C46_put` (all three); `C46_putRand` (all three); `C46_putFast` (all three); `C46_putAccurate` (all three).

### C47 shuffleAddrs is a permutation

Swap loop with arbitrary random numbers; `C47_caller_unchanged` is about the loop on arrays (see C100), where the copy matters.

Status: proved.

Theorems (axioms): `C47_shuffle` (propext, Quot.sound); `C47_caller_unchanged` (all three).

### C48 HTTP put: 200 means stored

The handler's cases; refuted for refused datapoints.

Status: partial. False of the code: 200 is also answered when the node refused the datapoint (witness with a vector of another dimension); proved when no reply is lost: 200 means acknowledged by a node, which over the reals and for the right dimension means stored; 500 means no node was reached; 400 changes nothing.

Theorems (axioms): `C48_refuted` (propext); `C48_partial` (all three); `C48_exact_partial` (all three).

### C49 API conversion is lossless

Direct.

Status: proved.

Theorems (axioms): `C49_roundtrip` (none); `C49_lossless` (propext).

### C50 Event-loop tasks run on schedule

`EventLoop.elStep`, tick modulo 1001; induction on the number of iterations.

Status: proved. While the loop is not stopped.

Theorems (axioms): `C50_schedule` (all three); `C50_schedule_in_range` (all three); `C50_turn` (all three).

### C51 Validation makes every skip interval safe

`validate`; refuted for Meta.

Status: partial. False of the code: the interval of Meta is not clamped, and 0 crashes the process (witness); proved when that interval is not 0.

Theorems (axioms): `C51_refuted` (propext); `C51_partial` (all three).

### C52 Intervals above 1000 disable a task

Exact schedule of a clamped task.

Status: partial. False of the code: clamped to 1000 the task is run in two of 1001 iterations (witness and exact schedule).

Theorems (axioms): `C52_refuted` (propext); `C52_partial` (all three).

### C53 Stopping the event loop stops it promptly

Small-step loop with a stop event at any point.

Status: proved.

Theorems (axioms): `C53_stop` (propext, Quot.sound); `C53_stop_done` (all three).

### C54 Namespace grouping is exact

Fold over the answers.

Status: proved.

Theorems (axioms): `C54_table` (all three); `C54_run` (all three).

### C55 Load balancing only pulls towards an under-filled local node

The margin is computed in floats in the code; `Proofs/Margin.lean` shows that the soft float gives exactly two fifths of the average (truncated) below 2^50. The decision loop for all averages, maps and outcomes of steals.

Status: proved. The margin of the code is two fifths of the average for averages below 2^50.

Theorems (axioms): `C55_balance` (all three); `C55_margin` (all three); `C55_run` (all three); `C55_task` (all three).

### C56 Arbiter map helpers are exact

Lists of map entries in any order.

Status: proved.

Theorems (axioms): `C56_checkAll` (propext, Quot.sound); `C56_uniformStatus` (propext, Quot.sound).

### C57 Vector helpers are exact and total

Direct inductions.

Status: proved.

Theorems (axioms): `C57_add_sub` (propext, Quot.sound); `C57_scale` (propext); `C57_vecEq` (propext, Quot.sound); `C57_vecIn` (propext, Quot.sound).

### C58 Expired data is never handed out

From the operation specifications: results are live at the time of the call.

Status: proved.

Theorems (axioms): `C58_centroid_never_hands_out_expired` (all three); `C58_manager_never_hands_out_expired` (all three).

### C59 Server methods do what the manager does

Each RPC method on an existing namespace equals the manager's method on that slot, including clock readings and panics.

Status: proved.

Theorems (axioms): `C59_delegates` (all three).

### C60 The whole service conserves datapoints

`Spec/Jobs.lean`: RPC requests, HTTP puts and queries, event loops with all nine tasks, and the goroutines they start, at any nodes. `SafeN` is `Safe` for all namespaces at once; each job is `SafeN`, the pool theorem gives conservation for every interleaving.

Status: partial. False of the code: a single failed Namespaces call during a distribution task of the event loop destroys all drained datapoints (witness: single node, three acknowledged datapoints), as does a RemoteAddrs without LocalAddr; proved when a distributing node always reaches itself, no reply is lost and the search finds a vector (over the reals); namespaces may be created meanwhile as long as no two creations overlap (C42), which C60_created_partial assumes as: no replaced slot remains.

Theorems (axioms): `C60_service_conserves_partial` (all three); `C60_created_partial` (all three); `C60_nothing_lost_partial` (all three); `C60_refuted` (propext, Quot.sound); `C60_refuted_config` (propext, Quot.sound).

### C61 The service never panics

`C61_no_panic`: as C60 with the trivial bag invariant and any network. `C61_any_data`: a second calculus (`Prog.NP`: every action of a program succeeds whatever others do in between) with an invariant that only says that tables point to slots and that searches keep their contract (`WLax`); no dimensions, no clock.

Status: proved.

Theorems (axioms): `C61_any_data` (all three); `C61_no_panic` (all three).

### C62 Maintenance tasks start one call per local namespace

The tasks of the event loop with the goroutines they start as output; run alone.

Status: proved.

Theorems (axioms): `C62_starts` (all three).

### C63 The Meta task logs exactly what the nodes hold

Run alone; one call per namespace.

Status: proved.

Theorems (axioms): `C63_meta` (all three).

### C64 Every loop ends

`Spec/Loops.lean` states each loop of the code as a body without fuel, and `Runs` as the least relation of a loop: nothing that does not end is in it. Each theorem says that `Runs` relates the start to exactly what the fuelled model function returns, so the fuel is no assumption. The one for the search runs the search on the centroid's generator, which removes expired datapoints while the search goes on, and shows that it is the model's search on the list of all vectors the generator yields.

Status: proved.

Theorems (axioms): `C64_centroid` (all three); `C64_portions` (all three); `C64_filter` (all three); `C64_steal` (all three).

### C65 A node distributes at most n datapoints, each to the best node that takes it

`Spec/Distribute.lean`: `TakenOut` (what is drained), `fastChoice`/`accurateChoice` (which nodes answered what, in the order of best fit), `Handed` (one datapoint after another: the first reachable node takes it, or the node itself). The theorems show that a run of the server method is such a sequence; `C65_moves` draws the consequences for what the nodes hold.

Status: proved.

Theorems (axioms): `C65_fast` (all three); `C65_accurate` (all three); `C65_moves` (all three).

### C66 The distribution tasks do one round per local namespace

`Rounds`: one round per namespace, with the replies of the nodes (`HeardNames`) and a distribution as in C65 to the `reporters` of the namespace. By induction on the list of local namespaces, from C54 and C65.

Status: proved.

Theorems (axioms): `C66_fast` (all three); `C66_accurate` (all three); `C66_moves` (all three).

### C67 The loop does what its tasks do, on schedule

An equation between the runs of two programs: the loop with its tick counter and `withSkip`, and the plain sequence of the tasks in `calls`, filtered by `Spec.turn`. By induction on the number of iterations; the tick is the number of the iteration modulo 1001.

Status: proved.

Theorems (axioms): `C67_loop` (all three).

### C68 The mean in float64 is near the exact mean

`Spec/Float.lean` gives the real value of a float64; `Proofs/F64Round.lean` shows that the soft float rounds to the nearest representable number and derives the usual error model (relative 2^-53, absolute 2^-1075 where underflow is possible) for all five operations; `Proofs/F64Sum.lean` sums, `Proofs/F64Mean.lean` means. The count is incremented in floats in the code, which is exact up to 2^53.

Status: proved.

Theorems (axioms): `C68_vecMean_error` (all three); `C68_vecMean_finite` (all three).

### C69 CosineSimilarity in float64 is finite and near the exact cosine

Error analysis of the dot product, of the norms and of the two divisions in the order of the code (`Proofs/F64Cos.lean`), with bounds that exclude overflow and harmful underflow. Complements the refutations of C05.

Status: proved.

Theorems (axioms): `C69_cosine_error` (all three).

### C70 EuclideanDistance in float64 is finite and near the exact sum of differences

Each summand is a square root of a square; underflow of the square costs at most 2^-537 (`sqrt_sq_err`).

Status: proved.

Theorems (axioms): `C70_euclidean_error` (all three).

### C71 Searches over float64 vectors are optimal up to rounding

From C06/C07 on computed scores and the error bounds: `bestBy_of_kbest`.

Status: proved.

Theorems (axioms): `C71_cosine_searches` (all three); `C71_euclidean_searches` (all three); `C71_lookup` (all three).

### C72 A centroid's vector never drifts far from the mean

Invariant: n times the vector is within (2 a - n) 4 (N+2) 2^-53 M of the sum of the n datapoints, a being the number put in so far; every put or removal adds one unit (`add_step`, `rm_step`), MoveVector resets. Followed through all operations including DistributeDataPoints between centroids (`Proofs/F64Drift2.lean`). `C72_drift_real` shows a vector that is off by the whole value of the datapoint held.

Status: proved.

Theorems (axioms): `C72_drift` (all three); `C72_drift_real` (propext).

### C73 Datapoints handed out are never changed later

`Model/Slice.lean` writes pkg/kmeans/centroid/centroid.go down again with slices as windows into arrays: reslicing shares, `append` writes in place if the capacity allows it, else it copies into a new array of any capacity. `Refines` relates a program on memory to the one on lists; `Rep`/`Frame`/`Own` say which arrays an operation may write (`Proofs/Slice.lean`), `Heap`/`Keep` that centroids and answers stay apart (`Proofs/SliceWorld.lean`). `C73_centroids` carries the history theorems on lists over.

Status: proved.

Theorems (axioms): `C73_slices_are_lists` (all three); `C73_answers_stay` (all three); `C73_no_sharing` (all three); `C73_centroids` (all three); `C73_reslice` (all three); `C73_append` (all three).

### C74 MemTrim makes capacity equal length and frees what was removed

Refuted with the growth rule of the Go runtime: 3 datapoints, capacity 4. Proved instead: at most B times the length for a policy that takes at most B times what it needs (2 for Go's before rounding to size classes), and zero cells behind (`Tidy`).

Status: partial. False of the code: 3 datapoints end with capacity 4 (witness); proved: capacity at most the growth factor of append times the length, cells behind the datapoints are zero.

Theorems (axioms): `C74_refuted` (all three); `C74_memTrim_partial` (all three); `C74_goGrow` (propext, Quot.sound).

### C75 Every accepted connection is served exactly once

`Model/Listen.lean`: StartListen as a transition system; each statement of the accept loop and of `stop` that touches shared state is one step, connections and failures of `Accept` may happen between any two. Invariant over all runs.

Status: proved.

Theorems (axioms): `C75_served` (all three).

### C76 Stop ends the server

The same transition system; two schedules as witnesses.

Status: partial. False of the code: only the connection accepted last is closed, or none (witnesses); proved: no connection is accepted after stop returns, requests are handled only on connections accepted before and not closed.

Theorems (axioms): `C76_refuted` (propext, Quot.sound); `C76_refuted_single` (propext, Quot.sound); `C76_stop_partial` (all three); `C76_closed` (all three).

### C77 Stop never panics

The same; the witness is a schedule of nine steps.

Status: partial. False of the code: nil dereference if the accept loop fails between the test and the call of Close (witness); proved: no panic unless a connection was accepted and Accept failed, none after the accept loop has ended, none without interleaving.

Theorems (axioms): `C77_refuted` (propext, Quot.sound); `C77_stop_partial` (all three); `C77_ended` (all three); `C77_alone` (propext, Quot.sound).

### C78 The server accepts connections until stopped

The same; the witness shows that no continuation accepts a connection.

Status: partial. False of the code: one failure of Accept ends the accept loop for good (witness); proved: without such a failure every connection before stop is accepted.

Theorems (axioms): `C78_refuted` (propext, Quot.sound); `C78_accepts_partial` (all three).

### C79 An answer of NearestCentroids is a state the centroid had

On the slice model of C73: `encodeDuring` reads one datapoint after another, other requests run histories of calls in between. A drained centroid is kept apart from all others (`Same K`).

Status: partial. False of the code: the reply is written after the lock is released; a drain meanwhile duplicates one datapoint and loses another (witness); proved: with drain the reply is exact whatever runs, without drain if nothing else runs.

Theorems (axioms): `C79_refuted` (all three); `C79_drained_partial` (all three); `C79_undisturbed_partial` (propext, Quot.sound).

### C80 No request can crash a node

`Spec/NoPanic.lean`: `Request.crashes` names the requests. One direction is the calculus of `C61_any_data` on a request alone, the other runs the code up to the `make`.

Status: partial. False of the code: a negative count reaches make and net/rpc does not recover (witnesses: KNNLookup, DistributeDataPointsFast); proved: exactly the requests with a negative count (in an existing namespace, for all but the two distributions) panic.

Theorems (axioms): `C80_refuted` (propext, Quot.sound); `C80_crash_iff_partial` (all three).

### C81 A client method is the server's method behind the network

`Spec/Client.lean`: `Remote` relates a program of the client to one of the server, case by case over the network (not sent, crash, reply, error, reply lost). What `NearestCentroids` does with the reply is C39.

Status: proved.

Theorems (axioms): `C81_remote` (propext, Quot.sound); `C81_knnLookup` (propext, Quot.sound).

### C82 All datapoints of a namespace at a node have one dimension

The calculus of C61 for the invariant that every manager is consistent (`ManagerOK`), with the effects of the manager's methods from C19. Stealing does not keep it.

Status: partial. False of the code: StealCentroid reads the vector, then appends centroids without comparing dimensions; an AddDataPoint to the emptied namespace in between mixes dimensions (witness); proved for everything that does not steal, in any interleaving.

Theorems (axioms): `C82_refuted` (propext, Quot.sound); `C82_uniform_partial` (all three).

### C83 A running service never crashes and stays consistent

`Service.run` executes events: a request arrives, a goroutine or an event loop makes a step, a loop is stopped. Jobs that are started later are idle before, so every run is a run of one pool with all jobs (`Going.static`), to which C61 applies.

Status: proved.

Theorems (axioms): `C83_runs` (all three).

### C84 Event loops keep to their schedule whatever else happens

Invariant `Conduct` by induction over the events. `C84_stop` compares the loop before and after with the steps of the loop alone (C53).

Status: proved.

Theorems (axioms): `C84_conduct` (all three); `C84_stop` (all three).

### C85 A running service loses and invents no data

C60 for the pool with all jobs; that tasks and their goroutines bring nothing follows from C84. `C85_nothing_invented` from `job_pool` without hypotheses on the network.

Status: partial. Conservation needs: no lost replies, a search that finds a nearest vector, every node reaches itself, and no namespace replaced by a second creation (C104 says when that is so); without these false, see C60 and C42. That nothing is invented is proved without them. C85_shipped_partial is the shipped configuration started from nothing.

Theorems (axioms): `C85_nothing_invented` (all three); `C85_conserves_partial` (all three); `C85_created_partial` (all three); `C85_shipped_partial` (all three).

### C86 A running service makes progress

Programs are well-founded trees: each step of a goroutine leads to a subtree, and every program ends after finitely many of its steps, however the others interfere. A loop waits only for a job, which ends, so it makes step after step; with C50 it gets to every iteration.

Status: proved.

Theorems (axioms): `C86_everything_ends` (all three); `C86_schedule` (all three); `C86_stop` (all three).

### C87 A running service gets rid of expired datapoints

Jobs that are there at the start end (C86). Jobs that begin later keep an invariant in every step (`Prog.NP` with `cleanCond`): no manager that has no expired datapoint gets one, new managers have none. By C86 the loop calls `eltExpire` again; its goroutine (C84) looks up the manager and expires it.

Status: proved.

Theorems (axioms): `C87_expiry` (all three); `C87_all_nodes` (all three).

### C88 Splitting and merging settle

After a merge at most one centroid is left or none is in the range (C29). From then on merges change nothing; a split halves what is in the range, into parts that are too large to be merged, so after `k` splits a centroid still in the range has a size `s` with `(s-1)*2^k` less than the number of datapoints.

Status: proved.

Theorems (axioms): `C88_settles` (all three).

### C89 The service with the shipped configuration works

The theorems C83, C84, C86, C87 and C88 with the numbers of cfg/cfg.go, which `Spec/Shipped.lean` writes down once more; `validate` leaves them as they are.

Status: proved.

Theorems (axioms): `C89_validate` (none); `C89_tasks` (all three); `C89_how_often` (propext, Quot.sound); `C89_shipped` (all three); `C89_ranges` (all three).

### C90 The status lines show what the nodes hold

`Model/Logger.lean`: `Logger.logTask` gives the lines as records. `StatusLine` and `TotalsOf` describe a line from what the node holds; together with C63 on what the Meta task gathers.

Status: partial. False for nodes that cannot be reached (shown as empty) and if RemoteAddrs does not include LocalAddr (the task is not shown); proved: with LocalAddr in RemoteAddrs, the lines are as documented, zeros only for nodes that are not always reachable.

Theorems (axioms): `C90_before` (none); `C90_latest` (propext); `C90_partial` (all three); `C90_refuted` (propext); `C90_refuted_config` (propext).

### C91 Each call of EventLoop starts a loop of its own

`Model/Restart.lean`: any number of loops over one configuration with its stop flag and iteration count; the step of a loop is `EventLoop.step` of C50. `eventsOf` (spec) selects what one loop did.

Status: partial. False: the stop flag and the iteration count are in the configuration. Proved: with one call per configuration the loop behaves as in C50-C53; after a call of any stop function every loop does at most one more thing and ends.

Theorems (axioms): `C91_refuted_restart` (propext, Quot.sound); `C91_refuted_stop` (propext); `C91_refuted_turns` (propext); `C91_refuted_count` (propext); `C91_single_partial` (propext, Quot.sound); `C91_stop` (propext, Quot.sound).

### C92 Answers come from the namespace that was asked for

`Proofs/Reads.lean`: a goroutine that only finds worlds with known contents gives answers with known contents; by C85 all worlds of a run are such. `Job.shows` (spec) selects the datapoints of an answer.

Status: proved.

Theorems (axioms): `C92_answers` (all three).

### C93 The body of an answer lists what was found

`Model/Json.lean`: `json.Marshal` writes all or nothing, numbers only and years 0 to 9999 only. `Proofs/Found.lean`: what a lookup finds has a comparable score; a vector with a NaN or an infinity has the score NaN. C92 for the rest. Refuted by a datapoint that expires in the year 10000.

Status: partial. A datapoint with an expiry after the year 9999 empties the body.

Theorems (axioms): `C93_body_partial` (all three); `C93_answer` (all three); `C93_only_numbers` (all three); `C93_refuted` (propext, Quot.sound).

### C94 Load balancing comes to rest

The sum of the squares of the sizes falls by at least two with every datapoint that moves: what is asked for keeps the other node above the average (C55), and at most one centroid more comes (C37). Hence a bound for all runs together. Refuted by two nodes that return to the same state after two runs; the period is checked by the kernel for a symbolic position (`Proofs/KernelRfl.lean`).

Status: partial. False for centroids that are larger than the leeway: two nodes exchange one for ever.

Theorems (axioms): `C94_rest_partial` (all three); `C94_refuted` (all three).

### C95 A node that is short of datapoints is fed

Induction over the loop of `eltLoadBalancing`: the first node that is visited and can spare enough is asked, and gives enough or everything (C37, C38). Refuted by a node whose vector became NaN when its last centroid was fetched; its state is a fixed point of the task.

Status: partial. Supposes that the search finds something and that there are no empty centroids; a node that gave everything away never gets anything.

Theorems (axioms): `C95_feeds_partial` (all three); `C95_refuted` (propext, Quot.sound).

### C96 Every configuration that EventLoop accepts can be run

C83 with its hypothesis about the configuration written out; refuted by runs of the service without any request.

Status: partial. False: negative numbers of datapoints to distribute and interval 0 for Meta are accepted and crash the process.

Theorems (axioms): `C96_partial` (all three); `C96_refuted` (propext, Quot.sound).

### C97 The API can be started whenever its address is free

`Model/Process.lean`: calls of `Start` as goroutines whose steps are an `http.Handle` or a `net.Listen`. Invariant: every registered route has an owner among the calls, and a call beyond registration owns both. Refuted by retries, second servers and two starts at the same time.

Status: partial. False for every call but the first in a process; two calls at the same time may both panic.

Theorems (axioms): `C97_partial` (propext, Quot.sound); `C97_first` (propext, Quot.sound); `C97_refuted` (propext, Quot.sound); `C97_refuted_retry` (propext, Quot.sound); `C97_refuted_both` (propext, Quot.sound).

### C98 The service comes up or leaves nothing behind

`main` by cases, over the same model.

Status: proved.

Theorems (axioms): `C98_main` (all three).

### C99 A test network can be stopped and started again

`Model/TestNet.lean`: induction over the addresses; the value receiver is in the model (`startListen` gives back the copy and the original), and so `Stop` is refuted for every network.

Status: partial. False: Stop stops nothing, since StartListen has a value receiver.

Theorems (axioms): `C99_new` (all three); `C99_partial` (all three); `C99_refuted_stop` (all three); `C99_refuted_again` (all three).

### C100 Vectors passed in are never modified

`Model/Arrays.lean` has the functions as loops over indexes, on slices of arrays in a memory. `loop_fill`: a loop that writes cell after cell of the array made last; `loop_reads`: a loop that only reads. The list functions used in all other properties are thereby shown to be right.

Status: proved.

Theorems (axioms): `C100_scale` (all three); `C100_add_sub` (all three); `C100_mean` (all three); `C100_distances` (propext, Quot.sound); `C100_eq_in` (propext, Quot.sound); `C100_knnBrute` (all three); `C100_searches` (all three); `C100_store` (all three).

### C101 HTTP requests cannot take a process down

`Model/Http.lean`: `recovered` turns panics of the handler's own steps into `none`. The calculus of C61 (`Proofs/NoPanicSystem.lean`: every step succeeds in every consistent state) for recovered programs; `OnlyReads` for the steps before the panic.

Status: proved.

Theorems (axioms): `C101_no_crash` (all three); `C101_negative_reads` (propext, Quot.sound); `C101_handler_panics` (all three); `C101_others` (all three).

### C102 A query for enough datapoints finds all of them

`visible` is defined from the contents of the managers only. The search returns all comparable centroids if asked for as many (`kbest_flatMap`), the loop over them is exact (C32), what it finds is a sub-multiset (C31) of comparable datapoints; so it is everything. Induction over the nodes; `BestFit` (C44) says which are asked. `C102_exact`: over the reals every vector of the right dimension is comparable.

Status: proved.

Theorems (axioms): `C102_getFast` (all three); `C102_getAccurate` (all three); `C102_query` (all three); `C102_exact` (all three).

### C103 What was put is found

Induction over the puts with C48 (over the reals no manager refuses), then `C102_exact`. `putAll` issues the requests one after the other.

Status: proved.

Theorems (axioms): `C103_put_then_query` (all three).

### C104 Namespaces created one at a time are never replaced

`Proofs/Neat.lean` is a calculus of programs: a program creates a namespace only where its job may (`Job.mayCreateAt`), and only if it saw before that it does not exist; it knows which namespaces exist at nodes that answered. Every job is neat (`neat_job`), without hypotheses. Invariant of the service (`Tended`): what an unfinished job saw missing and may create is still missing; a step that breaks it for another job would be a race. Examples: a run checked to be without races by a decision procedure (`calmRun`), and one with a race that loses a datapoint.

Status: proved.

Theorems (axioms): `C104_no_orphans` (all three); `C104_conserves` (all three); `C104_shipped` (all three).

### C105 What the vectors are after MemTrim, splits and draining

The vector stays the mean of the rest during removals (`MeanInv.rmP`), so before the last removal it is the last datapoint, and the last removal leaves it alone (`RmSteps.emptied`). `MemTrim` of the manager: induction over the centroids with `MMean.upd`. Splits do not touch the field.

Status: proved.

Theorems (axioms): `C105_memTrim` (all three); `C105_emptied` (all three); `C105_manager_memTrim` (all three); `C105_split` (all three); `C105_add` (all three).

### C106 A query answers with the best datapoints of the nearest centroids of the nearest nodes

The same relation `InTurn` (ask sources in turn until k are collected) describes both levels: lists of datapoints of centroids within a manager, and nodes. The loops are followed by induction; what a centroid gives is `DrainEffect.best`/`LookupEffect.best`, the order of centroids is `KBest`, the order of nodes `BestFit`. Expiry: every list is replaced by its survivors within the call.

Status: proved.

Theorems (axioms): `C106_lookup` (all three); `C106_getFast` (all three); `C106_getAccurate` (all three); `C106_query` (all three); `C106_exact` (all three).

### C107 Datapoints are placed at the nearest centroid

`Placing` is a relation on lists of all centroids concerned, one step per datapoint: nearest receiver of the moment (`Nearest`, the earliest of the most similar; the first result of a brute-force search is that one, `knnBrute_first`), then a successful `AddDataPoint` of that centroid. A nearest receiver never refuses, since only vectors of equal length can be compared. The loops are followed by induction; that nothing else changes is the `set` in the relation.

Status: proved.

Theorems (axioms): `C107_addDataPoint` (all three); `C107_distribute` (all three); `C107_managerDistribute` (all three); `C107_distributeInternal` (all three).

### C108 Redistribution leaves datapoints alone that are at their nearest centroid

`AllButStay n`: lists that are, centroid by centroid, contained in both the old and the new lists, with all but n datapoints. It composes by intersecting multisets. Witness found by looking at what `DrainOrdered` does to the vector of the centroid before the search.

Status: partial. False: a datapoint is taken out before it is compared, so the vector of its own centroid has turned away from it; proved: at most n datapoints move.

Theorems (axioms): `C108_partial` (all three); `C108_refuted` (all three).

### C109 Repeated redistribution comes to rest

`Again tk n ms`: `ms k` is the state before call k. For n ≤ 1 a call moves at most one datapoint, from the first centroid that has any (`OneMoved`, from C107). Moving it forward lowers the sum over all datapoints of the number of centroids behind their own; moving it backward puts it alone at an empty centroid, whose vector becomes its own, and from then on every call takes it out and puts it back (`Resting`). The latter needs that nothing is more similar to a vector than itself, which is exact arithmetic; division by zero is 0 there, while Go gives NaN. The counter-example has three states; a call leads from one to another whatever the order of the map, since two entries have two orders.

Status: partial. False: four datapoints at two centroids for which every DistributeDataPointsInternal(4) moves some, for ever; proved: for n <= 0 at most as many calls move something as the first centroid has datapoints; for n <= 1, in exact arithmetic, at most d(c-1)+1 calls for d datapoints and c centroids.

Theorems (axioms): `C109_first_partial` (all three); `C109_exact_partial` (all three); `C109_refuted` (all three).

### C110 A query for fewer datapoints is the beginning of a query for more

The slots of a search for k are the first k slots of a search for more (`bubble_take`). If nothing expires a centroid answers `found …`, a manager `collect … k` of what the centroids found give, nodes `collect … n` of what the nodes give. `collect` for fewer is the beginning of `collect` for more if each source is `Steady`: its answers are beginnings of each other, and fewer than asked is all it has. A manager is not steady if it has empty centroids, hence the counter-example.

Status: partial. Proved for centroids and managers; false for several nodes: a node is asked for as many centroids as datapoints, so an empty centroid makes the first node give nothing to a small query; proved for nodes if every centroid has a datapoint that can be compared.

Theorems (axioms): `C110_centroid` (all three); `C110_lookup_partial` (all three); `C110_nodes_partial` (all three); `C110_refuted` (propext, Quot.sound).

### C111 Ties in a search go to the earlier candidate

`PrefersEarlier` in terms of scores. The first slot alone is a search for one (`foldl_bubble_one`): it holds the first of the best so far. The counter-examples are computed.

Status: partial. False: a candidate pushed out of its slot does not push out an equal one in the next; proved: the first index of the answer is the earliest of the best, so searches for one prefer the earlier.

Theorems (axioms): `C111_first_partial` (propext, Quot.sound); `C111_one_partial` (all three); `C111_refuted` (all three); `C111_refuted_others` (none).

### C112 MergeCentroids absorbs the nearest centroids in order, until satisfied

`Coalesced` is a relation on places (`Option (Centroid F)`), independent of the marks and the deletion loop of the code: `MergeTurns` of `MergeTurn`, `NearestFirst`, `Absorbing`, `Adding` (calls of `AddDataPoint`). The code's lists and marks are related to places by `slots`. A search for as many as there are reports all that can be compared (`kbest_mem`); skipping keeps its order; deleting marked positions from the last on leaves the others in order (`slots_delete`).

Status: proved. Turns on a list of places; any search that is KNNBrute with some distance.

Theorems (axioms): `C112_merge` (all three).

### C113 Every centroid that MergeCentroids absorbs is the nearest at that moment

From C112, by running the relation when only one centroid satisfies the predicate. The counter-example is computed from six additions.

Status: partial. False: the order is that of the vector the absorbing centroid had at first; proved for the first one it absorbs, in the case that one is enough: exactly one centroid has fewer than m.

Theorems (axioms): `C113_one_partial` (all three); `C113_refuted` (all three).

### C114 A datapoint that is put lands at the nearest centroid

`LandedNearest`, `LandedFast` speak of scores of centroids at nodes (`ScoreAt`, `ScoreOf`) and of the lists of datapoints before and after (`ReceivedAt`). The best fit of the answers (C44) begins with a node that answered with the best vector (`bestFit_head`); a reachable node answers with its nearest centroid; that node takes the datapoint (`wp_put_place`, from C107).

Status: proved. Nodes reachable, nothing expires; the fast put may land at a centroid that is not the nearest of all (example).

Theorems (axioms): `C114_accurate` (all three); `C114_fast` (all three); `C114_http` (all three).

### C115 StealCentroid takes the nearest centroids, one at a time

`Robbing` is a relation on the list of the other node's centroids. One call of `NearestCentroids` with drain erases exactly the position found (`wp_nearest_one`); a centroid is rebuilt with the same datapoints (`wp_reinit_same`); `MoveVector` leaves the lists alone (`lists_same`). Induction on the fuel, which is not used up.

Status: proved. Another node, reachable; nothing expires.

Theorems (axioms): `C115_steal` (all three).

### C116 Any mix of receivers: nothing is lost, nothing else is touched

`Arena` is a memory of managers and loose centroids, receivers are pointers into it (`CRef`, `RRef`). `Arena.wp_addTo` says what one addition does (`Added`): pointers stay valid because managers only append. Induction over the datapoints and over the portions (`Spread`). The equalities `C116_centroids_only` show that the models used elsewhere (receivers are positions in a list of centroids) are the same program.

Status: proved. A centroid is held by at most one manager; receivers implemented outside the library are not modelled.

Theorems (axioms): `C116_centroid` (all three); `C116_manager` (all three); `C116_none` (propext); `C116_centroids_only` (all three); `C116_centroid_centroids_only` (all three).

### C117 Any mix of receivers: each datapoint is offered to the nearest

`Offering` is a relation on memories: each step compares the vectors the receivers report at that moment (`vecAt`) and makes one addition. The search is `knnBrute` with the cosine (`nearest_of_brute`).

Status: proved. Which datapoints DrainOrdered chooses is C15.

Theorems (axioms): `C117_centroid` (all three); `C117_manager` (all three).

### C118 Lost replies: copies are bounded by the replies lost

The same weakest-precondition proofs as for C45–C47, with a third outcome of a request: handled but unheard (`PutTried`, `DrainedFrom`, `HandedOut`). The balance follows by adding up the conservation of the single requests (`conserved_nodes_add`).

Status: proved. A lost reply is one of which the caller gets an error; replies that arrive late or twice do not exist in net/rpc.

Theorems (axioms): `C118_put` (all three); `C118_putRand` (all three); `C118_putFast` (all three); `C118_putAccurate` (all three); `C118_get` (all three); `C118_getRand` (all three); `C118_getFast` (all three); `C118_getAccurate` (all three); `C118_query` (all three); `C118_httpPut` (all three); `C118_fast` (all three); `C118_accurate` (all three); `C118_balance` (all three); `C118_balance_exact` (all three).

### C119 Lost replies: stealing loses at most one centroid, and says so

Induction over the steal loop with the outcome 'fetched, but the reply was lost' (`FetchedLossy`); it ends the loop, so at most one centroid is lost.

Status: proved. The two nodes are different.

Theorems (axioms): `C119_steal` (all three); `C119_ok` (all three).

### C120 What lost replies cost the running service

The ghost state of the interleaving proof of C36/C60 keeps a ledger of entries, `twice d` and `gone l`; every step of a goroutine adds at most one entry, and only if it is the arrival of a reply that is lost at that moment (`StepOK.few`). Steps of different goroutines are at different moments, so the entries of all namespaces are bounded by the moments (`LostReplies.append`). The theorem for C60 is now the case without entries. Since the theorem holds for every `Env`, one can take `back` to be false only at moments at which a reply is lost in the run considered.

Status: proved. A lost reply is one of which the caller gets an error; C120_jobs and C120_service have the hypotheses named in the statement (see C85).

Theorems (axioms): `C120_copies` (all three); `C120_jobs` (all three); `C120_service` (all three); `C120_service_copies` (all three).

### C121 Only datapoints that a manager turns away are refused

The interleaving proof is parameterised by a predicate R with the assumption that R holds of every datapoint that some manager turns away in a world of the run; every datapoint that a goroutine keeps in hand at its end satisfies R. R is instantiated with being turned away in the world after some prefix of the schedule. For the service, the worlds of the pool run are shown to be worlds of the service after some of the events. With searches that always find something R is empty, which gives back C120. C121_float uses the error bound C69.

Status: proved. Jobs that distribute to an empty list of nodes are excluded (see C36); C121_service is about moments at which everything is done and no namespace was created twice, and nodes that reach themselves and are among their RemoteAddrs (see C85).

Theorems (axioms): `C121_dropped` (all three); `C121_jobs` (all three); `C121_service` (all three); `C121_float` (all three).

### C122 Writing an answer does not bring the node down

On the slice model of C73: encodeFrom asks the variable of the centroid for each element anew (a drained centroid is a variable that nobody else has). Calls with good arguments run through (C18, C73), and what spares a centroid leaves its datapoints in front, so each element is still where it was.

Status: partial. False of the code without draining: the encoder panics when a concurrent request shortens the slice it is writing (C122_refuted); proved for draining requests, and for requests that run while nothing is taken out of the centroid. That the encoder reads the slice variable anew for each element is how encoding/gob and reflect work; they are not part of the repository.

Theorems (axioms): `C122_refuted` (all three); `C122_drained_partial` (all three); `C122_spared_partial` (all three).

### C123 A namespace of positive vectors takes every further positive vector

Life (Proofs/Life.lean): a property of a centroid and a clock position that the steps of a centroid keep is had by all centroids of a manager after any history. Here: the error bound of C72 with the clock position counting the puts, and components in [lo/2, 2hi], which follows from the error bound for a centroid that holds something and is inherited otherwise; then C69/C71 and C20.

Status: partial. False of the code: after MemTrim, which sets the vector to that of one datapoint, a drain can leave a zero vector, and the next put is refused although the HTTP interface answers 200 (C123_refuted). Proved for histories without MemTrim in which the clock is read at most N times, 16 N (N+2) hi at most 2^53 lo, vectors of 1 to 2^20 components, the cosine search.

Theorems (axioms): `C123_refuted` (propext, Quot.sound); `C123_vectors_partial` (all three); `C123_accepts_partial` (all three).

### C124 The centroid vectors of a manager never drift far from the means

The same with the error bound of C72 alone.

Status: proved. Histories without MemTrim (see C105 and C123 for what MemTrim does).

Theorems (axioms): `C124_manager_drift` (all three).

### C125 MemTrim may be called as often as one likes

A pure function trimVec for the vector that MemTrim leaves; each removal but the last keeps n*v - sum, which gives the law; doubles: n = 2 with first datapoint (0,1) doubles the first component exactly, so the 1024 calls are followed symbolically (powers of two are not rounded), not run.

Status: partial. False of the code: MemTrim empties the centroid one datapoint at a time, updating the vector, and then puts the list back without updating it; the distance of the vector from the mean of all datapoints but the last is multiplied by their number n at every call (C125_law, exact arithmetic), without bound (C125_unbounded), until in float64 it is infinite and puts are refused (C125_refuted: 1024 calls with two datapoints). Proved: the datapoints stay, centroids of at most one datapoint keep their vector, MoveVector repairs it.

Theorems (axioms): `C125_refuted` (all three); `C125_law` (all three); `C125_unbounded` (all three); `C125_moved` (all three); `C125_small_partial` (all three).

### C126 A query finds the most similar datapoint

The first node asked, its nearest centroid and the first datapoint are read off C106; the triangle inequality for angles (Mathlib, lists as vectors of EuclideanSpace) gives 2*rho. The refutation is a session of HTTP requests run by the kernel.

Status: partial. False of the code (C126_refuted: four puts and a query at one node, whose answer has similarity 0.71 although the query vector itself is stored). Proved in exact arithmetic: if every datapoint is within the angle rho of the vector it is found by (its centroid's if accurate, its node's if fast), the angle of the first answer is within 2*rho of the smallest, and for fast queries and CentroidManager.KNNLookup every datapoint of the answer is within 2*rho of every one that is left out; for states without empty centroids, nothing expiring, all nodes reachable.

Theorems (axioms): `C126_refuted` (propext); `C126_refuted_similarity` (propext); `C126_near_partial` (all three); `C126_lookup_partial` (all three); `C126_fast_partial` (all three).

### C127 KNNEuc finds the nearest and KFNEuc the farthest vectors

KBest of C06 with the sandwich of C03 (Euclidean <= L1 <= sqrt(d)*Euclidean); candidates beyond the largest float are farther anyway.

Status: partial. False of the code, since EuclideanDistance is the sum of absolute differences (C03): nearest to (0,0) among (3,3) and (0,5) it answers (0,5). Proved: right up to the factor sqrt(d) in dimension d, so right in dimension 1.

Theorems (axioms): `C127_refuted` (all three); `C127_refuted_f64` (none); `C127_partial` (all three).

### C128 On vectors of equal norm similarity is nearness

KBest of C06; |t-v|^2 = |t|^2 + nu^2 - 2 t.v, with the cases of a zero target or zero norm.

Status: proved. Over the reals; all targets, including zero.

Theorems (axioms): `C128_unit_norm` (all three).

### C129 A query without drain changes nothing

The manager afterwards is the one before with the vectors of the centroids read taken out of the manager's vector and put back (Touched); over the reals that is the identity. The answer is a function of the centroids alone. The refutation is a session of RPC and HTTP requests run by the kernel.

Status: partial. False of the code in float64 (C129_refuted: two nodes, the same fast query twice, different answers; the first query turns a node's vector from (1,0) into (0,0)). Proved: in exact arithmetic a query changes nothing; in any arithmetic it changes no manager in anything but its vector, and the same lookup at one manager answers the same again. That two queries at several nodes give the same answer is C133.

Theorems (axioms): `C129_refuted` (propext, Quot.sound); `C129_lookup_partial` (all three); `C129_again_partial` (all three); `C129_lookup_exact_partial` (all three); `C129_query_partial` (all three); `C129_query_exact_partial` (all three).

### C130 A maintenance call with nothing to do changes nothing

Expire: Touched as for C129. MoveVector: a centroid whose vector is the mean of its datapoints is settled, the first call settles all of them, and a call on a settled manager is the identity. Split and merge: induction on the loop, no iteration enters the body. The refutation is a session run by the kernel.

Status: partial. False of the code for Expire in float64 (C130_refuted: one call with nothing expired turns a node's vector from (1,0) into (0,0), and a fast query then finds nothing there). Proved: SplitCentroids and MergeCentroids with nothing in the range leave the whole world as it was; a second MoveVector leaves the manager as it was and answers the same, unless a datapoint expires meanwhile; Expire changes nothing but the vector of the manager, and in exact arithmetic nothing at all.

Theorems (axioms): `C130_refuted` (propext, Quot.sound); `C130_expire_partial` (all three); `C130_expire_exact_partial` (all three); `C130_moveVector_partial` (all three); `C130_split_partial` (all three); `C130_merge_partial` (all three).

### C131 Asking for more than there is makes no difference

Equality of runs. bubble into set slots followed by unset ones gives set slots followed by one unset one less, independently of how many; hence the indexes of a search do not depend on the number of slots beyond the candidates. The loops of the centroid, the manager and the nodes then never stop early, by induction with the size of what is left as the bound.

Status: proved.

Theorems (axioms): `C131_query` (all three); `C131_lookup` (all three); `C131_search` (all three).

### C132 Every query is answered, whatever number of datapoints it asks for

The functions on the way of a query once more (Model/Memory.lean), each make limited to L bytes. If the count fits they are equal to the functions of the model, by unfolding and induction; the remedy is C131.

Status: partial. False of the code (C132_refuted: a query for 2^62 datapoints at empty nodes makes the handler panic; C132_refuted_rpc: a lookup for that many ends the process of a node). Proved: with memory for L bytes a query runs as with unlimited memory if 80 times its count fits into L, and panics otherwise, whatever is stored; cutting the count down to one more than what is stored gives the answer to the count asked for. Only the allocations on the way of a query are limited.

Theorems (axioms): `C132_refuted` (all three); `C132_refuted_rpc` (all three); `C132_panics` (all three); `C132_crash` (all three); `C132_fits_partial` (propext, Quot.sound); `C132_cut_partial` (all three).

### C133 The answer of a query depends only on what the nodes hold

The nodes asked are those with scores, sorted by a relation (one has a score better than all of the other's) that is asymmetric and, by hypothesis, total: there is one such list. What is collected along it is a function of the lists the nodes hold (C110). C129 says that the nodes hold the same after the first query.

Status: partial. False of the code (C133_refuted: two nodes equally similar to the query are asked in the order in which their vectors arrived; the same query twice gives (1,0) and then (2,0), fast and accurate). Proved: if of any two nodes one is more similar to the query than the other, the answer is the same; asked twice, for accurate queries in any arithmetic, for fast ones in exact arithmetic (in float64 C129_refuted).

Theorems (axioms): `C133_refuted` (propext); `C133_partial` (all three); `C133_twice_partial` (all three); `C133_twice_exact_partial` (all three).

### C134 Housekeeping does not make the clustering worse

The squared distances to any vector are those to the mean plus the count times the squared distance to the mean. Outside MemTrim every centroid keeps its vector at the mean in exact arithmetic, so what matters is which datapoints stay together: fewer of them, or the same ones in more groups, cost less. The witnesses are float64 runs with integer means.

Status: partial. False of the code: one round of DistributeDataPointsInternal takes four datapoints from a cost of 4 to 294 (C134_refuted_distribute), MemTrim takes two from 4 to 8 (C134_refuted_memTrim, both in float64). Proved in exact arithmetic for draining, expiring, lookups, NearestCentroids, MoveVector and SplitCentroids after any history without MemTrim; MoveVector on any consistent manager; the bound for AddDataPoint, with or without the automatic split.

Theorems (axioms): `C134_refuted_distribute` (all three); `C134_refuted_memTrim` (all three); `C134_tidying_partial` (all three); `C134_add` (all three); `C134_moveVector` (all three).

### C135 The same data in other coordinates

Every function of the centroid and the manager commutes with a bijective change of coordinates that commutes with the vector operations, as an equation between programs: no invariant is needed. What is left is the cosine search, whose scores a similarity transformation leaves as they are. The witness adds 1, 2^53 and -2^53 in two orders.

Status: partial. False in float64: sums depend on the order of the summands, and with two datapoints stored the nearest one to (1,1,1) changes when all coordinates are reversed (C135_refuted). Proved in exact arithmetic for all similarity transformations and all histories, predicates passed to SplitCentroids and MergeCentroids being given the centroid in its old coordinates; in any arithmetic and with any search functions for maps that commute with the vector operations, the search functions being transported too (C135_any_arithmetic).

Theorems (axioms): `C135_refuted` (propext, Quot.sound); `C135_similarity_partial` (all three); `C135_answers_partial` (all three); `C135_service_partial` (all three); `C135_any_arithmetic` (propext, Quot.sound).

### C136 The length of a query vector

A query vector is used by the cosine search only. Two programs that differ in that vector are twins: step by step they do the same in every world whose managers and centroids search by cosine, an invariant of the queries. No assumption about the network, the clock or the map order is needed. The witness is a vector whose norm overflows.

Status: partial. False in float64: the sum of squares of (2^600,0) overflows, all its similarities are 0, and the query is answered with the orthogonal datapoint of the node that answered first (C136_refuted). Proved in exact arithmetic for all positive factors (C136_query_partial, C136_manager_partial); in any arithmetic for two vectors with the same similarity to every vector (C136_indistinct).

Theorems (axioms): `C136_refuted` (propext); `C136_indistinct` (all three); `C136_query_partial` (all three); `C136_manager_partial` (all three).

### C137 Payloads are opaque

Every operation of centroids and managers commutes with replacing each datapoint d by g d, if g keeps the vector and the outcome of the comparison with the clock (Proofs/Recode). Two programs are parallel if they take the same steps with the data written in two ways (Proofs/RecodeSystem); all programs of servers, clients, the API and the event loop are, and so are all runs of a service, with the same panics. Here g changes the payload. For C137_secret both runs are compared with the run without payloads.

Status: proved.

Theorems (axioms): `C137_payloads` (all three); `C137_job` (all three); `C137_secret` (all three).

### C138 Only the time that is left matters

As C137; g changes the expiry by a strictly monotone function and the clock of the second run is changed by the same function. The two sides of the comparison in Expired change alike. The model has instants as integers; that Go's time.Time has a range, and how an instant is written on the wire, is not in these theorems.

Status: proved.

Theorems (axioms): `C138_instants` (all three); `C138_left` (all three); `C138_disabled` (all three); `C138_job` (all three).

### C139 The most similar datapoints come first

C106 says how an answer is put together: nodes in turn, their centroids in turn, the best of each. Order within a part is exact; between parts the triangle inequality of angles costs rho on each side. The witness is four puts and a query.

Status: partial. False: after puts of (1,0), (0,10), (1,1), (1,1) a query for (1,0) lists the two (1,1) before (1,0) (C139_refuted). Proved: the angles of an answer are in order up to 2 rho, in exact arithmetic, if datapoints are within rho of the vectors by which they are found (C139_near_partial); in order in any arithmetic for one node with one centroid (C139_exact_partial).

Theorems (axioms): `C139_refuted` (propext); `C139_near_partial` (all three); `C139_exact_partial` (all three).

### C140 Storing more does not make answers worse

Counting: those strictly more similar than the i-th datapoint of the longer list are at most i, and all of the first i+1 of the other would be among them. With C106 this is the claim for one centroid; C126 gives the claim for the first datapoint in general.

Status: partial. False: one more put of (1,1) changes the best answer to a query for (1,0) from (1,0) to (1,1), because the node divides its centroid (C140_refuted). Proved place by place in any arithmetic for one node with one centroid before and after (C140_exact_partial); in exact arithmetic for any number of nodes and centroids, for the first datapoint, up to 2 rho (C140_near_partial).

Theorems (axioms): `C140_refuted` (propext); `C140_exact_partial` (all three); `C140_near_partial` (all three).

### C141 How often an HTTP request turns to a node

A run of concurrent goroutines is traced: which goroutine looks into the table of which node, the first thing every server method does. Programs are given an allowance of looks per node and shown to make do with it for every answer they may get at every step, so that nothing is assumed about the other goroutines. Requests that get lost before they reach a node are not counted.

Status: proved.

Theorems (axioms): `C141_put` (all three); `C141_query` (all three).

### C142 Later queries do not notice maintenance that had nothing to do

As C129: Expire takes the vector of each centroid out of the manager's sum and puts it back (Touched), which is the identity over the reals. A centroid whose vector is the mean MoveVector computes (AtMean) is a fixed point of it, and MoveVector makes every centroid such a one.

Status: partial. False in float64: an Expire with nothing to remove turns the vector of a node from (1,0) into (0,0), after which fast queries do not ask it (C142_refuted). Proved: Expire then changes nothing but the manager's vector in any arithmetic and nothing at all in exact arithmetic, also of any other node; MoveVector, called again, changes nothing in any arithmetic.

Theorems (axioms): `C142_refuted` (propext, Quot.sound); `C142_expire_partial` (all three); `C142_expire_exact_partial` (all three); `C142_server_exact_partial` (all three); `C142_move_centroid_partial` (all three); `C142_move_partial` (all three).

### C143 Names of nodes and of namespaces

As C137, for bijective renamings of nodes and of namespaces: a relation between programs that take the same steps but for names, preserved by every construct, then by goroutines, event loops and the service. Names are natural numbers in the model and strings in the code; only equality of names is used in either. Orders in which the code ranges over maps keyed by names are external inputs, by position, not by name.

Status: proved.

Theorems (axioms): `C143_service` (propext, Quot.sound); `C143_job` (propext, Quot.sound); `C143_request` (propext, Quot.sound); `C143_query` (propext, Quot.sound); `C143_put` (propext, Quot.sound).

### C144 Other namespaces play no part

C34 says that a namespace is not changed by requests about others; this is about what can be observed. Programs that use a single namespace are characterised by their steps; two runs are related by a partial bijection between the slots of that namespace. In the second run the goroutines about other namespaces are replaced by idle ones, which turn to no node and only let external inputs pass, up to the position where the goroutine they replace was: clock readings and random numbers are shared by everything that runs. The event loop and its tasks are left out: they go through all namespaces, and when they come to one depends on how many there are. If a job about another namespace panics, the process ends (C80, C101).

Status: proved.

Theorems (axioms): `C144_tenants` (all three); `C144_alone` (all three).

### C145 How often RPC requests and maintenance tasks turn to a node

As C141, with programs that have an allowance of looks into a table. How many datapoints a drain takes out depends on the search function of the manager, so the allowance of the distributions is only needed in worlds whose searches keep their contract (C61 shows that this stays so). How often StealCentroid turns to its source is not bounded by its limit: centroids whose datapoints have expired count for nothing (C145_steal_often: four times with limit 1).

Status: proved. The limit of StealCentroid bounds nothing: C145_steal_often.

Theorems (axioms): `C145_request` (all three); `C145_task` (all three); `C145_steal` (all three); `C145_fast` (all three); `C145_accurate` (all three); `C145_steal_often` (propext, Quot.sound).

### C146 The order of puts does not matter

A put to a manager with one centroid and fewer datapoints than the threshold leaves it with one centroid (Roomy, through the client, the node and the HTTP handler). With one centroid the answer is the best of what is stored (C106), and the best of two permutations of the same list are equally good place by place (takesBest_more, both ways). With enough asked for, C103 for both orders.

Status: partial. False in float64: four puts to one node that divides a centroid at four, in two orders, and the best answer to the same query is (1,1) or (1,0) (C146_refuted). Proved: in any arithmetic two states of one node with one centroid that hold the same datapoints answer equally well place by place; in exact arithmetic, for any nodes and centroids, queries that ask for enough get the same datapoints after puts in either order; in exact arithmetic one node below the threshold answers every query with the same similarities. Missing: any bound on the difference once a centroid has been divided.

Theorems (axioms): `C146_refuted` (propext); `C146_exact_partial` (all three); `C146_enough_partial` (all three); `C146_few_partial` (all three).

### C147 What a draining query took out can be put back

C102 for the draining query, which leaves the nodes in order (wp_query_ok) and without datapoints; then C103 from that state. Nodes and centroids that have been emptied are still there, and in exact arithmetic they take every datapoint of their dimension. C147_manager_partial: what is stored was added (run_accepted), so it is in range and of the dimension of the manager; by C123_accepts_partial for ever longer histories each put is accepted, the bag grows by it, and the dimension stays.

Status: partial. False in float64: (1,0) and (2^60,0) are put, drained and put back; the puts are answered with 200 and nothing is stored, because the emptied centroid is left with a zero vector by rounding (C147_refuted). Proved in exact arithmetic, for any nodes, states, orders and kinds of requests, for datapoints that do not expire (C147_partial); and in float64 for a manager, any history without MemTrim and any call that hands datapoints out, for datapoints with positive components that are not too different (C147_manager_partial); the same through the API after any session of puts and queries, for accurate draining queries (C147_service_partial). Missing: float64 for other vectors, for fast draining queries, and next to the event loop.

Theorems (axioms): `C147_refuted` (propext); `C147_partial` (all three); `C147_manager_partial` (all three); `C147_service_partial` (all three).

### C148 In float64, sessions of puts and queries lose nothing, whatever maintenance runs in between

C123 shows that calls of a manager other than MemTrim keep every centroid vector near the mean of what the centroid holds. LifeService.lean carries such invariants (Life) through the HTTP put and query: at each node the managers of the namespace are kept, and positions of the clock only grow. So a manager never refuses a datapoint in range (C48 says that otherwise a put that is answered with 200 has been stored), queries conserve the bag (C45), and everything stored can be compared with a vector in range, so C102 finds it. By induction on the session. Upkeep.lean adds the calls of event loops: each changes one manager, which conserves its bag (C21) and is kept. Spread.lean adds distribution between nodes: C65 says that it ends, every datapoint in hand is in range and so is taken in by the node that acknowledges it or by the manager it came from, and every step keeps the managers. Loot.lean adds stealing, for any fuel: a stolen centroid is built again from what it held, with the mean of it as its vector, as after MoveVector at its old node. Drains, draining lookups and taken centroids hand over what leaves the manager of one node. Crowd.lean does all namespaces at once: what happens in one namespace leaves the others alone (the frame of C144), and a maintenance call is seen from every namespace.

Status: proved.

Theorems (axioms): `C148_session` (all three); `C148_upkeep` (all three); `C148_namespaces` (all three).

### C149 In float64, no schedule of concurrent requests brings a centroid vector near zero

Upheld.lean: a program is Upheld from a position of the clock on if all that it does to managers keeps an invariant that stays true as time passes; a manager that it has made but not yet entered in a table is kept as well. Upheld programs compose, one step of one goroutine keeps all managers that ever were created, including those that a second AddSlot has replaced, and so by induction on the schedule does every pool. The invariant is that of C123.

Status: partial. False with StealCentroid: a stolen centroid begins with its first datapoint as its vector; if its datapoints have expired meanwhile they are taken out of that vector as if it were their mean, which can leave it zero, and then later datapoints are dropped (C149_refuted). Proved for concurrent HTTP puts and queries, tasks of event loops but load balancing, the goroutines that they start, and all RPC requests but StealCentroid, from empty nodes on. Missing: StealCentroid for datapoints that do not expire, and with it load balancing and whole iterations of the event loop.

Theorems (axioms): `C149_refuted` (propext, Quot.sound); `C149_concurrent_partial` (all three).

## Testing the theorems against wrong programs

`seeded/LOG.jsonl` has one line per attempt: an edit of one model definition as a realistic bug would make it (boundary, missed case,
swapped argument, dropped update), the claim it breaks, the property theorems whose proofs then fail (directly or through a lemma),
the examples that fail, and the theorems that were tightened because nothing failed. Attempts are made in a copy outside `/verif`: failing proofs are
replaced until the project builds again, and the property theorems that then depend on a replaced proof are those reported.
