{
 "claims": [
  {
   "property": "C01",
   "status": "proved",
   "theorems": [
    "Trypo.C01_vecMean_flag",
    "Trypo.C01_vecMean_mean"
   ],
   "note": "flag/shape for every scalar type, value over the reals"
  },
  {
   "property": "C02",
   "status": "proved",
   "theorems": [
    "Trypo.C02_euclid_fails_iff",
    "Trypo.C02_euclid_metric"
   ],
   "note": ""
  },
  {
   "property": "C03",
   "status": "partial",
   "theorems": [
    "Trypo.C03_refuted_f64",
    "Trypo.C03_refuted",
    "Trypo.C03_partial"
   ],
   "note": "false of the code: it computes the L1 distance; refuted with witness (0,0),(3,4); proved: bounds, and equality in dimension <= 1"
  },
  {
   "property": "C04",
   "status": "proved",
   "theorems": [
    "Trypo.C04_cos_fails_iff",
    "Trypo.C04_cos_similarity",
    "Trypo.C04_cos_zero"
   ],
   "note": ""
  },
  {
   "property": "C05",
   "status": "partial",
   "theorems": [
    "Trypo.C05_refuted",
    "Trypo.C05_refuted_underflow",
    "Trypo.C05_refuted_overflow",
    "Trypo.C05_partial",
    "Trypo.C05_special_values"
   ],
   "note": "false of the code: one zero vector gives NaN; also underflow and overflow"
  },
  {
   "property": "C06",
   "status": "proved",
   "theorems": [
    "Trypo.C06_C07_knnBrute_kbest",
    "Trypo.C06_prefabs_kbest"
   ],
   "note": ""
  },
  {
   "property": "C07",
   "status": "proved",
   "theorems": [
    "Trypo.C06_C07_knnBrute_kbest",
    "Trypo.C06_prefabs_kbest"
   ],
   "note": ""
  },
  {
   "property": "C08",
   "status": "proved",
   "theorems": [
    "Trypo.C08_knn_ignores_incomparable"
   ],
   "note": ""
  },
  {
   "property": "C09",
   "status": "proved",
   "theorems": [
    "Trypo.C09_knn_order_independent"
   ],
   "note": ""
  },
  {
   "property": "C10",
   "status": "proved",
   "theorems": [
    "Trypo.C10_knn_panics_iff"
   ],
   "note": ""
  },
  {
   "property": "C11",
   "status": "proved",
   "theorems": [
    "Trypo.C11_addDataPoint"
   ],
   "note": ""
  },
  {
   "property": "C12",
   "status": "proved",
   "theorems": [
    "Trypo.C12_vec_is_mean"
   ],
   "note": "over the reals, every history, also with DistributeDataPoints between any number of centroids"
  },
  {
   "property": "C13",
   "status": "partial",
   "theorems": [
    "Trypo.C13_memTrim_refuted",
    "Trypo.C13_memTrim_partial"
   ],
   "note": "false of the code: MemTrim ruins the vector (witness with vector 2 -> 3); proved: the data part; C105 says what the vector is instead"
  },
  {
   "property": "C14",
   "status": "proved",
   "theorems": [
    "Trypo.C14_drainUnordered",
    "Trypo.C14_drainUnordered_exact"
   ],
   "note": ""
  },
  {
   "property": "C15",
   "status": "proved",
   "theorems": [
    "Trypo.C15_drainOrdered",
    "Trypo.C15_drainOrdered_furthest"
   ],
   "note": ""
  },
  {
   "property": "C16",
   "status": "proved",
   "theorems": [
    "Trypo.C16_expire"
   ],
   "note": ""
  },
  {
   "property": "C17",
   "status": "proved",
   "theorems": [
    "Trypo.C17_knnLookup",
    "Trypo.C17_knnLookup_best"
   ],
   "note": ""
  },
  {
   "property": "C18",
   "status": "proved",
   "theorems": [
    "Trypo.C18_distribute",
    "Trypo.C18_history_conserves"
   ],
   "note": "receivers are centroids"
  },
  {
   "property": "C19",
   "status": "proved",
   "theorems": [
    "Trypo.C19_centroid_dimensions",
    "Trypo.C19_manager_consistent"
   ],
   "note": ""
  },
  {
   "property": "C20",
   "status": "proved",
   "theorems": [
    "Trypo.C20_addDataPoint",
    "Trypo.C20_addDataPoint_exact",
    "Trypo.C20_addDataPoint_accepts"
   ],
   "note": ""
  },
  {
   "property": "C21",
   "status": "proved",
   "theorems": [
    "Trypo.C21_manager_is_a_bag"
   ],
   "note": "every history, every search keeping the search contract (proved for the library searches)"
  },
  {
   "property": "C22",
   "status": "proved",
   "theorems": [
    "Trypo.C22_manager_never_panics"
   ],
   "note": "caller predicates are pure functions"
  },
  {
   "property": "C23",
   "status": "partial",
   "theorems": [
    "Trypo.C23_refuted_add",
    "Trypo.C23_refuted_memTrim",
    "Trypo.C23_refuted_split",
    "Trypo.C23_refuted_merge",
    "Trypo.C23_partial"
   ],
   "note": "false of the code after a split, MemTrim and MergeCentroids (witnesses); proved over the reals for histories without these; C105 says what Vec is after splits and MemTrim"
  },
  {
   "property": "C24",
   "status": "proved",
   "theorems": [
    "Trypo.C24_moveVector"
   ],
   "note": "over the reals"
  },
  {
   "property": "C25",
   "status": "partial",
   "theorems": [
    "Trypo.C25_refuted",
    "Trypo.C25_drain_partial",
    "Trypo.C25_drain_zero_partial",
    "Trypo.C25_C26_drainUnordered_exact"
   ],
   "note": "false of the code for n=0 (a datapoint is drained); proved for n>=1, and at most 1 for n=0"
  },
  {
   "property": "C26",
   "status": "proved",
   "theorems": [
    "Trypo.C26_portions",
    "Trypo.C25_C26_drainUnordered_exact"
   ],
   "note": ""
  },
  {
   "property": "C27",
   "status": "proved",
   "theorems": [
    "Trypo.C27_splitCentroids"
   ],
   "note": ""
  },
  {
   "property": "C28",
   "status": "proved",
   "theorems": [
    "Trypo.C28_sizes_bounded",
    "Trypo.C28_small_threshold_never_splits"
   ],
   "note": ""
  },
  {
   "property": "C29",
   "status": "proved",
   "theorems": [
    "Trypo.C29_mergeCentroids",
    "Trypo.C29_merge_all",
    "Trypo.C29_merge_small",
    "Trypo.C29_knnCos_findsAll"
   ],
   "note": "'comparable centroids' is FindsAll of the search, shown for KNNCos over the reals"
  },
  {
   "property": "C30",
   "status": "proved",
   "theorems": [
    "Trypo.C30_distributeInternal",
    "Trypo.C30_distribute"
   ],
   "note": ""
  },
  {
   "property": "C31",
   "status": "proved",
   "theorems": [
    "Trypo.C31_knnLookup",
    "Trypo.C31_surplus",
    "Trypo.C31_stops"
   ],
   "note": ""
  },
  {
   "property": "C32",
   "status": "partial",
   "theorems": [
    "Trypo.C32_refuted",
    "Trypo.C32_knnLookup_partial",
    "Trypo.C32_knnLookup_complete_partial"
   ],
   "note": "false of the code: only the k nearest centroids are looked at, even if empty (witness); proved: the exact number returned, and the claim when there are at most k centroids"
  },
  {
   "property": "C33",
   "status": "partial",
   "theorems": [
    "Trypo.C33_refuted",
    "Trypo.C33_nearestCentroids_data_partial",
    "Trypo.C33_nearestCentroids_vec_partial"
   ],
   "note": "vector part false of the code when the last centroid is drained (0/0, witness); data part proved in full, vector part over the reals for the remaining centroids"
  },
  {
   "property": "C34",
   "status": "proved",
   "theorems": [
    "Trypo.C34_isolation",
    "Trypo.C34_missing",
    "Trypo.C34_add_creates"
   ],
   "note": ""
  },
  {
   "property": "C35",
   "status": "partial",
   "theorems": [
    "Trypo.C35_refuted",
    "Trypo.C35_add_partial",
    "Trypo.C35_add_exact_partial"
   ],
   "note": "false of the code: the answer is true although the datapoint was refused (witness with NaN cosine); proved: AddDataPoint stores the datapoint or changes nothing, and over the reals a live datapoint of the right dimension is stored"
  },
  {
   "property": "C36",
   "status": "partial",
   "theorems": [
    "Trypo.C36_refuted_refused",
    "Trypo.C36_refuted_nowhere",
    "Trypo.C36_refuted_nowhere_accurate",
    "Trypo.C36_refuted_lost_reply",
    "Trypo.C36_system_conserves_partial",
    "Trypo.C36_nothing_lost_partial"
   ],
   "note": "false of the code in several ways (witnesses: a refused but acknowledged datapoint, nowhere to distribute to, a lost reply); proved for any interleaving of requests when no reply is lost and namespaces are established"
  },
  {
   "property": "C37",
   "status": "proved",
   "theorems": [
    "Trypo.C37_steal"
   ],
   "note": "when no reply is lost and source and thief differ; C37_self_steal shows what a node stealing from itself reports"
  },
  {
   "property": "C38",
   "status": "partial",
   "theorems": [
    "Trypo.C38_refuted",
    "Trypo.C38_partial"
   ],
   "note": "false of the code when the nearest remote centroid is empty (witness); proved when no remote centroid is empty and the search always finds something (shown for KNNCos over the reals)"
  },
  {
   "property": "C39",
   "status": "partial",
   "theorems": [
    "Trypo.C39_refuted",
    "Trypo.C39_unpack_partial"
   ],
   "note": "false of the code: two adjacent empty centroids make the client panic with an index error (witness); proved when no two adjacent centroids are empty"
  },
  {
   "property": "C40",
   "status": "proved",
   "theorems": [
    "Trypo.C40_namespaces",
    "Trypo.C40_meta"
   ],
   "note": ""
  },
  {
   "property": "C41",
   "status": "partial",
   "theorems": [
    "Trypo.C41_linearizable_partial",
    "Trypo.C41_small_steps_partial",
    "Trypo.C41_refuted",
    "Trypo.C41_atomic",
    "Trypo.C41_atomic_done",
    "Trypo.C41_atomic_complete"
   ],
   "note": "proved for requests with one access to an existing namespace; false for DistributeDataPoints* and StealCentroid, which access a namespace several times (witness). Critical sections are atomic: proved on a machine with mutexes"
  },
  {
   "property": "C42",
   "status": "partial",
   "theorems": [
    "Trypo.C42_refuted",
    "Trypo.C42_concurrent_adds_partial"
   ],
   "note": "false of the code when two requests create the same namespace at once (witness); proved for established namespaces"
  },
  {
   "property": "C43",
   "status": "proved",
   "theorems": [
    "Trypo.C43_one_lock",
    "Trypo.C43_no_deadlock",
    "Trypo.C43_all_return",
    "Trypo.C43_served"
   ],
   "note": ""
  },
  {
   "property": "C44",
   "status": "proved",
   "theorems": [
    "Trypo.C44_bestFit_fast",
    "Trypo.C44_bestFit_accurate"
   ],
   "note": "any search that finds the best; shown for KNNCos"
  },
  {
   "property": "C45",
   "status": "partial",
   "theorems": [
    "Trypo.C45_refuted",
    "Trypo.C45_get_partial",
    "Trypo.C45_getRand_partial",
    "Trypo.C45_getFast_partial",
    "Trypo.C45_getAccurate_partial",
    "Trypo.C45_query_partial"
   ],
   "note": "false of the code when a reply to a draining lookup is lost (witness); the draining part is proved when no reply is lost, the rest without that hypothesis"
  },
  {
   "property": "C46",
   "status": "proved",
   "theorems": [
    "Trypo.C46_put",
    "Trypo.C46_putRand",
    "Trypo.C46_putFast",
    "Trypo.C46_putAccurate"
   ],
   "note": "when no reply is lost, as stated"
  },
  {
   "property": "C47",
   "status": "proved",
   "theorems": [
    "Trypo.C47_shuffle",
    "Trypo.C47_caller_unchanged"
   ],
   "note": ""
  },
  {
   "property": "C48",
   "status": "partial",
   "theorems": [
    "Trypo.C48_refuted",
    "Trypo.C48_partial",
    "Trypo.C48_exact_partial"
   ],
   "note": "false of the code: 200 is also answered when the node refused the datapoint (witness with a vector of another dimension); proved when no reply is lost: 200 means acknowledged by a node, which over the reals and for the right dimension means stored; 500 means no node was reached; 400 changes nothing"
  },
  {
   "property": "C49",
   "status": "proved",
   "theorems": [
    "Trypo.C49_roundtrip",
    "Trypo.C49_lossless"
   ],
   "note": ""
  },
  {
   "property": "C50",
   "status": "proved",
   "theorems": [
    "Trypo.C50_schedule",
    "Trypo.C50_schedule_in_range",
    "Trypo.C50_turn"
   ],
   "note": "while the loop is not stopped"
  },
  {
   "property": "C51",
   "status": "partial",
   "theorems": [
    "Trypo.C51_refuted",
    "Trypo.C51_partial"
   ],
   "note": "false of the code: the interval of Meta is not clamped, and 0 crashes the process (witness); proved when that interval is not 0"
  },
  {
   "property": "C52",
   "status": "partial",
   "theorems": [
    "Trypo.C52_refuted",
    "Trypo.C52_partial"
   ],
   "note": "false of the code: clamped to 1000 the task is run in two of 1001 iterations (witness and exact schedule)"
  },
  {
   "property": "C53",
   "status": "proved",
   "theorems": [
    "Trypo.C53_stop",
    "Trypo.C53_stop_done"
   ],
   "note": ""
  },
  {
   "property": "C54",
   "status": "proved",
   "theorems": [
    "Trypo.C54_table",
    "Trypo.C54_run"
   ],
   "note": ""
  },
  {
   "property": "C55",
   "status": "proved",
   "theorems": [
    "Trypo.C55_balance",
    "Trypo.C55_margin",
    "Trypo.C55_run",
    "Trypo.C55_task"
   ],
   "note": "the margin of the code is two fifths of the average for averages below 2^50"
  },
  {
   "property": "C56",
   "status": "proved",
   "theorems": [
    "Trypo.C56_checkAll",
    "Trypo.C56_uniformStatus"
   ],
   "note": ""
  },
  {
   "property": "C57",
   "status": "proved",
   "theorems": [
    "Trypo.C57_add_sub",
    "Trypo.C57_scale",
    "Trypo.C57_vecEq",
    "Trypo.C57_vecIn"
   ],
   "note": ""
  },
  {
   "property": "C58",
   "status": "proved",
   "theorems": [
    "Trypo.C58_centroid_never_hands_out_expired",
    "Trypo.C58_manager_never_hands_out_expired"
   ],
   "note": ""
  },
  {
   "property": "C59",
   "status": "proved",
   "theorems": [
    "Trypo.C59_delegates"
   ],
   "note": ""
  },
  {
   "property": "C60",
   "status": "partial",
   "theorems": [
    "Trypo.C60_service_conserves_partial",
    "Trypo.C60_created_partial",
    "Trypo.C60_nothing_lost_partial",
    "Trypo.C60_refuted",
    "Trypo.C60_refuted_config"
   ],
   "note": "false of the code: a single failed Namespaces call during a distribution task of the event loop destroys all drained datapoints (witness: single node, three acknowledged datapoints), as does a RemoteAddrs without LocalAddr; proved when a distributing node always reaches itself, no reply is lost and the search finds a vector (over the reals); namespaces may be created meanwhile as long as no two creations overlap (C42), which C60_created_partial assumes as: no replaced slot remains"
  },
  {
   "property": "C61",
   "status": "proved",
   "theorems": [
    "Trypo.C61_any_data",
    "Trypo.C61_no_panic"
   ],
   "note": ""
  },
  {
   "property": "C62",
   "status": "proved",
   "theorems": [
    "Trypo.C62_starts"
   ],
   "note": ""
  },
  {
   "property": "C63",
   "status": "proved",
   "theorems": [
    "Trypo.C63_meta"
   ],
   "note": ""
  },
  {
   "property": "C64",
   "status": "proved",
   "theorems": [
    "Trypo.C64_centroid",
    "Trypo.C64_portions",
    "Trypo.C64_filter",
    "Trypo.C64_steal"
   ],
   "note": ""
  },
  {
   "property": "C65",
   "status": "proved",
   "theorems": [
    "Trypo.C65_fast",
    "Trypo.C65_accurate",
    "Trypo.C65_moves"
   ],
   "note": ""
  },
  {
   "property": "C66",
   "status": "proved",
   "theorems": [
    "Trypo.C66_fast",
    "Trypo.C66_accurate",
    "Trypo.C66_moves"
   ],
   "note": ""
  },
  {
   "property": "C67",
   "status": "proved",
   "theorems": [
    "Trypo.C67_loop"
   ],
   "note": ""
  },
  {
   "property": "C68",
   "status": "proved",
   "theorems": [
    "Trypo.C68_vecMean_error",
    "Trypo.C68_vecMean_finite"
   ],
   "note": ""
  },
  {
   "property": "C69",
   "status": "proved",
   "theorems": [
    "Trypo.C69_cosine_error"
   ],
   "note": ""
  },
  {
   "property": "C70",
   "status": "proved",
   "theorems": [
    "Trypo.C70_euclidean_error"
   ],
   "note": ""
  },
  {
   "property": "C71",
   "status": "proved",
   "theorems": [
    "Trypo.C71_cosine_searches",
    "Trypo.C71_euclidean_searches",
    "Trypo.C71_lookup"
   ],
   "note": ""
  },
  {
   "property": "C72",
   "status": "proved",
   "theorems": [
    "Trypo.C72_drift",
    "Trypo.C72_drift_real"
   ],
   "note": ""
  },
  {
   "property": "C73",
   "status": "proved",
   "theorems": [
    "Trypo.C73_slices_are_lists",
    "Trypo.C73_answers_stay",
    "Trypo.C73_no_sharing",
    "Trypo.C73_centroids",
    "Trypo.C73_reslice",
    "Trypo.C73_append"
   ],
   "note": ""
  },
  {
   "property": "C74",
   "status": "partial",
   "theorems": [
    "Trypo.C74_refuted",
    "Trypo.C74_memTrim_partial",
    "Trypo.C74_goGrow"
   ],
   "note": "false of the code: 3 datapoints end with capacity 4 (witness); proved: capacity at most the growth factor of append times the length, cells behind the datapoints are zero"
  },
  {
   "property": "C75",
   "status": "proved",
   "theorems": [
    "Trypo.C75_served"
   ],
   "note": ""
  },
  {
   "property": "C76",
   "status": "partial",
   "theorems": [
    "Trypo.C76_refuted",
    "Trypo.C76_refuted_single",
    "Trypo.C76_stop_partial",
    "Trypo.C76_closed"
   ],
   "note": "false of the code: only the connection accepted last is closed, or none (witnesses); proved: no connection is accepted after stop returns, requests are handled only on connections accepted before and not closed"
  },
  {
   "property": "C77",
   "status": "partial",
   "theorems": [
    "Trypo.C77_refuted",
    "Trypo.C77_stop_partial",
    "Trypo.C77_ended",
    "Trypo.C77_alone"
   ],
   "note": "false of the code: nil dereference if the accept loop fails between the test and the call of Close (witness); proved: no panic unless a connection was accepted and Accept failed, none after the accept loop has ended, none without interleaving"
  },
  {
   "property": "C78",
   "status": "partial",
   "theorems": [
    "Trypo.C78_refuted",
    "Trypo.C78_accepts_partial"
   ],
   "note": "false of the code: one failure of Accept ends the accept loop for good (witness); proved: without such a failure every connection before stop is accepted"
  },
  {
   "property": "C79",
   "status": "partial",
   "theorems": [
    "Trypo.C79_refuted",
    "Trypo.C79_drained_partial",
    "Trypo.C79_undisturbed_partial"
   ],
   "note": "false of the code: the reply is written after the lock is released; a drain meanwhile duplicates one datapoint and loses another (witness); proved: with drain the reply is exact whatever runs, without drain if nothing else runs"
  },
  {
   "property": "C80",
   "status": "partial",
   "theorems": [
    "Trypo.C80_refuted",
    "Trypo.C80_crash_iff_partial"
   ],
   "note": "false of the code: a negative count reaches make and net/rpc does not recover (witnesses: KNNLookup, DistributeDataPointsFast); proved: exactly the requests with a negative count (in an existing namespace, for all but the two distributions) panic"
  },
  {
   "property": "C81",
   "status": "proved",
   "theorems": [
    "Trypo.C81_remote",
    "Trypo.C81_knnLookup"
   ],
   "note": ""
  },
  {
   "property": "C82",
   "status": "partial",
   "theorems": [
    "Trypo.C82_refuted",
    "Trypo.C82_uniform_partial"
   ],
   "note": "false of the code: StealCentroid reads the vector, then appends centroids without comparing dimensions; an AddDataPoint to the emptied namespace in between mixes dimensions (witness); proved for everything that does not steal, in any interleaving"
  },
  {
   "property": "C83",
   "status": "proved",
   "theorems": [
    "Trypo.C83_runs"
   ],
   "note": ""
  },
  {
   "property": "C84",
   "status": "proved",
   "theorems": [
    "Trypo.C84_conduct",
    "Trypo.C84_stop"
   ],
   "note": ""
  },
  {
   "property": "C85",
   "status": "partial",
   "theorems": [
    "Trypo.C85_nothing_invented",
    "Trypo.C85_conserves_partial",
    "Trypo.C85_created_partial",
    "Trypo.C85_shipped_partial"
   ],
   "note": "conservation needs: no lost replies, a search that finds a nearest vector, every node reaches itself, and no namespace replaced by a second creation (C104 says when that is so); without these false, see C60 and C42. That nothing is invented is proved without them. C85_shipped_partial is the shipped configuration started from nothing"
  },
  {
   "property": "C86",
   "status": "proved",
   "theorems": [
    "Trypo.C86_everything_ends",
    "Trypo.C86_schedule",
    "Trypo.C86_stop"
   ],
   "note": ""
  },
  {
   "property": "C87",
   "status": "proved",
   "theorems": [
    "Trypo.C87_expiry",
    "Trypo.C87_all_nodes"
   ],
   "note": ""
  },
  {
   "property": "C88",
   "status": "proved",
   "theorems": [
    "Trypo.C88_settles"
   ],
   "note": ""
  },
  {
   "property": "C89",
   "status": "proved",
   "theorems": [
    "Trypo.C89_validate",
    "Trypo.C89_tasks",
    "Trypo.C89_how_often",
    "Trypo.C89_shipped",
    "Trypo.C89_ranges"
   ],
   "note": ""
  },
  {
   "property": "C90",
   "status": "partial",
   "theorems": [
    "Trypo.C90_before",
    "Trypo.C90_latest",
    "Trypo.C90_partial",
    "Trypo.C90_refuted",
    "Trypo.C90_refuted_config"
   ],
   "note": "false for nodes that cannot be reached (shown as empty) and if RemoteAddrs does not include LocalAddr (the task is not shown); proved: with LocalAddr in RemoteAddrs, the lines are as documented, zeros only for nodes that are not always reachable"
  },
  {
   "property": "C91",
   "status": "partial",
   "theorems": [
    "Trypo.C91_refuted_restart",
    "Trypo.C91_refuted_stop",
    "Trypo.C91_refuted_turns",
    "Trypo.C91_refuted_count",
    "Trypo.C91_single_partial",
    "Trypo.C91_stop"
   ],
   "note": "false: the stop flag and the iteration count are in the configuration. Proved: with one call per configuration the loop behaves as in C50-C53; after a call of any stop function every loop does at most one more thing and ends"
  },
  {
   "property": "C92",
   "status": "proved",
   "theorems": [
    "Trypo.C92_answers"
   ],
   "note": ""
  },
  {
   "property": "C93",
   "status": "partial",
   "theorems": [
    "Trypo.C93_body_partial",
    "Trypo.C93_answer",
    "Trypo.C93_only_numbers",
    "Trypo.C93_refuted"
   ],
   "note": "a datapoint with an expiry after the year 9999 empties the body"
  },
  {
   "property": "C94",
   "status": "partial",
   "theorems": [
    "Trypo.C94_rest_partial",
    "Trypo.C94_refuted"
   ],
   "note": "false for centroids that are larger than the leeway: two nodes exchange one for ever"
  },
  {
   "property": "C95",
   "status": "partial",
   "theorems": [
    "Trypo.C95_feeds_partial",
    "Trypo.C95_refuted"
   ],
   "note": "supposes that the search finds something and that there are no empty centroids; a node that gave everything away never gets anything"
  },
  {
   "property": "C96",
   "status": "partial",
   "theorems": [
    "Trypo.C96_partial",
    "Trypo.C96_refuted"
   ],
   "note": "false: negative numbers of datapoints to distribute and interval 0 for Meta are accepted and crash the process"
  },
  {
   "property": "C97",
   "status": "partial",
   "theorems": [
    "Trypo.C97_partial",
    "Trypo.C97_first",
    "Trypo.C97_refuted",
    "Trypo.C97_refuted_retry",
    "Trypo.C97_refuted_both"
   ],
   "note": "false for every call but the first in a process; two calls at the same time may both panic"
  },
  {
   "property": "C98",
   "status": "proved",
   "theorems": [
    "Trypo.C98_main"
   ],
   "note": ""
  },
  {
   "property": "C99",
   "status": "partial",
   "theorems": [
    "Trypo.C99_new",
    "Trypo.C99_partial",
    "Trypo.C99_refuted_stop",
    "Trypo.C99_refuted_again"
   ],
   "note": "false: Stop stops nothing, since StartListen has a value receiver"
  },
  {
   "property": "C100",
   "status": "proved",
   "theorems": [
    "Trypo.C100_scale",
    "Trypo.C100_add_sub",
    "Trypo.C100_mean",
    "Trypo.C100_distances",
    "Trypo.C100_eq_in",
    "Trypo.C100_knnBrute",
    "Trypo.C100_searches",
    "Trypo.C100_store"
   ],
   "note": ""
  },
  {
   "property": "C101",
   "status": "proved",
   "theorems": [
    "Trypo.C101_no_crash",
    "Trypo.C101_negative_reads",
    "Trypo.C101_handler_panics",
    "Trypo.C101_others"
   ],
   "note": ""
  },
  {
   "property": "C102",
   "status": "proved",
   "theorems": [
    "Trypo.C102_getFast",
    "Trypo.C102_getAccurate",
    "Trypo.C102_query",
    "Trypo.C102_exact"
   ],
   "note": ""
  },
  {
   "property": "C103",
   "status": "proved",
   "theorems": [
    "Trypo.C103_put_then_query"
   ],
   "note": ""
  },
  {
   "property": "C104",
   "status": "proved",
   "theorems": [
    "Trypo.C104_no_orphans",
    "Trypo.C104_conserves",
    "Trypo.C104_shipped"
   ],
   "note": ""
  },
  {
   "property": "C105",
   "status": "proved",
   "theorems": [
    "Trypo.C105_memTrim",
    "Trypo.C105_emptied",
    "Trypo.C105_manager_memTrim",
    "Trypo.C105_split",
    "Trypo.C105_add"
   ],
   "note": ""
  },
  {
   "property": "C106",
   "status": "proved",
   "theorems": [
    "Trypo.C106_lookup",
    "Trypo.C106_getFast",
    "Trypo.C106_getAccurate",
    "Trypo.C106_query",
    "Trypo.C106_exact"
   ],
   "note": ""
  },
  {
   "property": "C107",
   "status": "proved",
   "theorems": [
    "Trypo.C107_addDataPoint",
    "Trypo.C107_distribute",
    "Trypo.C107_managerDistribute",
    "Trypo.C107_distributeInternal"
   ],
   "note": ""
  },
  {
   "property": "C108",
   "status": "partial",
   "theorems": [
    "Trypo.C108_partial",
    "Trypo.C108_refuted"
   ],
   "note": "false: a datapoint is taken out before it is compared, so the vector of its own centroid has turned away from it; proved: at most n datapoints move"
  },
  {
   "property": "C109",
   "status": "partial",
   "theorems": [
    "Trypo.C109_first_partial",
    "Trypo.C109_exact_partial",
    "Trypo.C109_refuted"
   ],
   "note": "false: four datapoints at two centroids for which every DistributeDataPointsInternal(4) moves some, for ever; proved: for n <= 0 at most as many calls move something as the first centroid has datapoints; for n <= 1, in exact arithmetic, at most d(c-1)+1 calls for d datapoints and c centroids"
  },
  {
   "property": "C110",
   "status": "partial",
   "theorems": [
    "Trypo.C110_centroid",
    "Trypo.C110_lookup_partial",
    "Trypo.C110_nodes_partial",
    "Trypo.C110_refuted"
   ],
   "note": "proved for centroids and managers; false for several nodes: a node is asked for as many centroids as datapoints, so an empty centroid makes the first node give nothing to a small query; proved for nodes if every centroid has a datapoint that can be compared"
  },
  {
   "property": "C111",
   "status": "partial",
   "theorems": [
    "Trypo.C111_first_partial",
    "Trypo.C111_one_partial",
    "Trypo.C111_refuted",
    "Trypo.C111_refuted_others"
   ],
   "note": "false: a candidate pushed out of its slot does not push out an equal one in the next; proved: the first index of the answer is the earliest of the best, so searches for one prefer the earlier"
  },
  {
   "property": "C112",
   "status": "proved",
   "theorems": [
    "Trypo.C112_merge"
   ],
   "note": "turns on a list of places; any search that is KNNBrute with some distance"
  },
  {
   "property": "C113",
   "status": "partial",
   "theorems": [
    "Trypo.C113_one_partial",
    "Trypo.C113_refuted"
   ],
   "note": "false: the order is that of the vector the absorbing centroid had at first; proved for the first one it absorbs, in the case that one is enough: exactly one centroid has fewer than m"
  },
  {
   "property": "C114",
   "status": "proved",
   "theorems": [
    "Trypo.C114_accurate",
    "Trypo.C114_fast",
    "Trypo.C114_http"
   ],
   "note": "nodes reachable, nothing expires; the fast put may land at a centroid that is not the nearest of all (example)"
  },
  {
   "property": "C115",
   "status": "proved",
   "theorems": [
    "Trypo.C115_steal"
   ],
   "note": "another node, reachable; nothing expires"
  },
  {
   "property": "C116",
   "status": "proved",
   "theorems": [
    "Trypo.C116_centroid",
    "Trypo.C116_manager",
    "Trypo.C116_none",
    "Trypo.C116_centroids_only",
    "Trypo.C116_centroid_centroids_only"
   ],
   "note": "a centroid is held by at most one manager; receivers implemented outside the library are not modelled"
  },
  {
   "property": "C117",
   "status": "proved",
   "theorems": [
    "Trypo.C117_centroid",
    "Trypo.C117_manager"
   ],
   "note": "which datapoints DrainOrdered chooses is C15"
  },
  {
   "property": "C118",
   "status": "proved",
   "theorems": [
    "Trypo.C118_put",
    "Trypo.C118_putRand",
    "Trypo.C118_putFast",
    "Trypo.C118_putAccurate",
    "Trypo.C118_get",
    "Trypo.C118_getRand",
    "Trypo.C118_getFast",
    "Trypo.C118_getAccurate",
    "Trypo.C118_query",
    "Trypo.C118_httpPut",
    "Trypo.C118_fast",
    "Trypo.C118_accurate",
    "Trypo.C118_balance",
    "Trypo.C118_balance_exact"
   ],
   "note": "a lost reply is one of which the caller gets an error; replies that arrive late or twice do not exist in net/rpc"
  },
  {
   "property": "C119",
   "status": "proved",
   "theorems": [
    "Trypo.C119_steal",
    "Trypo.C119_ok"
   ],
   "note": "the two nodes are different"
  },
  {
   "property": "C120",
   "status": "proved",
   "theorems": [
    "Trypo.C120_copies",
    "Trypo.C120_jobs",
    "Trypo.C120_service",
    "Trypo.C120_service_copies"
   ],
   "note": "a lost reply is one of which the caller gets an error; C120_jobs and C120_service have the hypotheses named in the statement (see C85)"
  },
  {
   "property": "C121",
   "status": "proved",
   "theorems": [
    "Trypo.C121_dropped",
    "Trypo.C121_jobs",
    "Trypo.C121_service",
    "Trypo.C121_float"
   ],
   "note": "jobs that distribute to an empty list of nodes are excluded (see C36); C121_service is about moments at which everything is done and no namespace was created twice, and nodes that reach themselves and are among their RemoteAddrs (see C85)"
  },
  {
   "property": "C122",
   "status": "partial",
   "theorems": [
    "Trypo.C122_refuted",
    "Trypo.C122_drained_partial",
    "Trypo.C122_spared_partial"
   ],
   "note": "false of the code without draining: the encoder panics when a concurrent request shortens the slice it is writing (C122_refuted); proved for draining requests, and for requests that run while nothing is taken out of the centroid. That the encoder reads the slice variable anew for each element is how encoding/gob and reflect work; they are not part of the repository"
  },
  {
   "property": "C123",
   "status": "partial",
   "theorems": [
    "Trypo.C123_refuted",
    "Trypo.C123_vectors_partial",
    "Trypo.C123_accepts_partial"
   ],
   "note": "false of the code: after MemTrim, which sets the vector to that of one datapoint, a drain can leave a zero vector, and the next put is refused although the HTTP interface answers 200 (C123_refuted). Proved for histories without MemTrim in which the clock is read at most N times, 16 N (N+2) hi at most 2^53 lo, vectors of 1 to 2^20 components, the cosine search"
  },
  {
   "property": "C124",
   "status": "proved",
   "theorems": [
    "Trypo.C124_manager_drift"
   ],
   "note": "histories without MemTrim (see C105 and C123 for what MemTrim does)"
  },
  {
   "property": "C125",
   "status": "partial",
   "theorems": [
    "Trypo.C125_refuted",
    "Trypo.C125_law",
    "Trypo.C125_unbounded",
    "Trypo.C125_moved",
    "Trypo.C125_small_partial"
   ],
   "note": "false of the code: MemTrim empties the centroid one datapoint at a time, updating the vector, and then puts the list back without updating it; the distance of the vector from the mean of all datapoints but the last is multiplied by their number n at every call (C125_law, exact arithmetic), without bound (C125_unbounded), until in float64 it is infinite and puts are refused (C125_refuted: 1024 calls with two datapoints). Proved: the datapoints stay, centroids of at most one datapoint keep their vector, MoveVector repairs it"
  },
  {
   "property": "C126",
   "status": "partial",
   "theorems": [
    "Trypo.C126_refuted",
    "Trypo.C126_refuted_similarity",
    "Trypo.C126_near_partial",
    "Trypo.C126_lookup_partial",
    "Trypo.C126_fast_partial"
   ],
   "note": "false of the code (C126_refuted: four puts and a query at one node, whose answer has similarity 0.71 although the query vector itself is stored). Proved in exact arithmetic: if every datapoint is within the angle rho of the vector it is found by (its centroid's if accurate, its node's if fast), the angle of the first answer is within 2*rho of the smallest, and for fast queries and CentroidManager.KNNLookup every datapoint of the answer is within 2*rho of every one that is left out; for states without empty centroids, nothing expiring, all nodes reachable"
  },
  {
   "property": "C127",
   "status": "partial",
   "theorems": [
    "Trypo.C127_refuted",
    "Trypo.C127_refuted_f64",
    "Trypo.C127_partial"
   ],
   "note": "false of the code, since EuclideanDistance is the sum of absolute differences (C03): nearest to (0,0) among (3,3) and (0,5) it answers (0,5). Proved: right up to the factor sqrt(d) in dimension d, so right in dimension 1"
  },
  {
   "property": "C128",
   "status": "proved",
   "theorems": [
    "Trypo.C128_unit_norm"
   ],
   "note": "over the reals; all targets, including zero"
  },
  {
   "property": "C129",
   "status": "partial",
   "theorems": [
    "Trypo.C129_refuted",
    "Trypo.C129_lookup_partial",
    "Trypo.C129_again_partial",
    "Trypo.C129_lookup_exact_partial",
    "Trypo.C129_query_partial",
    "Trypo.C129_query_exact_partial"
   ],
   "note": "false of the code in float64 (C129_refuted: two nodes, the same fast query twice, different answers; the first query turns a node's vector from (1,0) into (0,0)). Proved: in exact arithmetic a query changes nothing; in any arithmetic it changes no manager in anything but its vector, and the same lookup at one manager answers the same again. That two queries at several nodes give the same answer is C133"
  },
  {
   "property": "C130",
   "status": "partial",
   "theorems": [
    "Trypo.C130_refuted",
    "Trypo.C130_expire_partial",
    "Trypo.C130_expire_exact_partial",
    "Trypo.C130_moveVector_partial",
    "Trypo.C130_split_partial",
    "Trypo.C130_merge_partial"
   ],
   "note": "false of the code for Expire in float64 (C130_refuted: one call with nothing expired turns a node's vector from (1,0) into (0,0), and a fast query then finds nothing there). Proved: SplitCentroids and MergeCentroids with nothing in the range leave the whole world as it was; a second MoveVector leaves the manager as it was and answers the same, unless a datapoint expires meanwhile; Expire changes nothing but the vector of the manager, and in exact arithmetic nothing at all"
  },
  {
   "property": "C131",
   "status": "proved",
   "theorems": [
    "Trypo.C131_query",
    "Trypo.C131_lookup",
    "Trypo.C131_search"
   ],
   "note": ""
  },
  {
   "property": "C132",
   "status": "partial",
   "theorems": [
    "Trypo.C132_refuted",
    "Trypo.C132_refuted_rpc",
    "Trypo.C132_panics",
    "Trypo.C132_crash",
    "Trypo.C132_fits_partial",
    "Trypo.C132_cut_partial"
   ],
   "note": "false of the code (C132_refuted: a query for 2^62 datapoints at empty nodes makes the handler panic; C132_refuted_rpc: a lookup for that many ends the process of a node). Proved: with memory for L bytes a query runs as with unlimited memory if 80 times its count fits into L, and panics otherwise, whatever is stored; cutting the count down to one more than what is stored gives the answer to the count asked for. Only the allocations on the way of a query are limited"
  },
  {
   "property": "C133",
   "status": "partial",
   "theorems": [
    "Trypo.C133_refuted",
    "Trypo.C133_partial",
    "Trypo.C133_twice_partial",
    "Trypo.C133_twice_exact_partial"
   ],
   "note": "false of the code (C133_refuted: two nodes equally similar to the query are asked in the order in which their vectors arrived; the same query twice gives (1,0) and then (2,0), fast and accurate). Proved: if of any two nodes one is more similar to the query than the other, the answer is the same; asked twice, for accurate queries in any arithmetic, for fast ones in exact arithmetic (in float64 C129_refuted)"
  },
  {
   "property": "C134",
   "status": "partial",
   "theorems": [
    "Trypo.C134_refuted_distribute",
    "Trypo.C134_refuted_memTrim",
    "Trypo.C134_tidying_partial",
    "Trypo.C134_add",
    "Trypo.C134_moveVector"
   ],
   "note": "false of the code: one round of DistributeDataPointsInternal takes four datapoints from a cost of 4 to 294 (C134_refuted_distribute), MemTrim takes two from 4 to 8 (C134_refuted_memTrim, both in float64). Proved in exact arithmetic for draining, expiring, lookups, NearestCentroids, MoveVector and SplitCentroids after any history without MemTrim; MoveVector on any consistent manager; the bound for AddDataPoint, with or without the automatic split"
  },
  {
   "property": "C135",
   "status": "partial",
   "theorems": [
    "Trypo.C135_refuted",
    "Trypo.C135_similarity_partial",
    "Trypo.C135_answers_partial",
    "Trypo.C135_service_partial",
    "Trypo.C135_any_arithmetic"
   ],
   "note": "false in float64: sums depend on the order of the summands, and with two datapoints stored the nearest one to (1,1,1) changes when all coordinates are reversed (C135_refuted). Proved in exact arithmetic for all similarity transformations and all histories, predicates passed to SplitCentroids and MergeCentroids being given the centroid in its old coordinates; in any arithmetic and with any search functions for maps that commute with the vector operations, the search functions being transported too (C135_any_arithmetic)"
  },
  {
   "property": "C136",
   "status": "partial",
   "theorems": [
    "Trypo.C136_refuted",
    "Trypo.C136_indistinct",
    "Trypo.C136_query_partial",
    "Trypo.C136_manager_partial"
   ],
   "note": "false in float64: the sum of squares of (2^600,0) overflows, all its similarities are 0, and the query is answered with the orthogonal datapoint of the node that answered first (C136_refuted). Proved in exact arithmetic for all positive factors (C136_query_partial, C136_manager_partial); in any arithmetic for two vectors with the same similarity to every vector (C136_indistinct)"
  },
  {
   "property": "C137",
   "status": "proved",
   "theorems": [
    "Trypo.C137_payloads",
    "Trypo.C137_job",
    "Trypo.C137_secret"
   ],
   "note": ""
  },
  {
   "property": "C138",
   "status": "proved",
   "theorems": [
    "Trypo.C138_instants",
    "Trypo.C138_left",
    "Trypo.C138_disabled",
    "Trypo.C138_job"
   ],
   "note": ""
  },
  {
   "property": "C139",
   "status": "partial",
   "theorems": [
    "Trypo.C139_refuted",
    "Trypo.C139_near_partial",
    "Trypo.C139_exact_partial"
   ],
   "note": "false: after puts of (1,0), (0,10), (1,1), (1,1) a query for (1,0) lists the two (1,1) before (1,0) (C139_refuted). Proved: the angles of an answer are in order up to 2 rho, in exact arithmetic, if datapoints are within rho of the vectors by which they are found (C139_near_partial); in order in any arithmetic for one node with one centroid (C139_exact_partial)"
  },
  {
   "property": "C140",
   "status": "partial",
   "theorems": [
    "Trypo.C140_refuted",
    "Trypo.C140_exact_partial",
    "Trypo.C140_near_partial"
   ],
   "note": "false: one more put of (1,1) changes the best answer to a query for (1,0) from (1,0) to (1,1), because the node divides its centroid (C140_refuted). Proved place by place in any arithmetic for one node with one centroid before and after (C140_exact_partial); in exact arithmetic for any number of nodes and centroids, for the first datapoint, up to 2 rho (C140_near_partial)"
  },
  {
   "property": "C141",
   "status": "proved",
   "theorems": [
    "Trypo.C141_put",
    "Trypo.C141_query"
   ],
   "note": ""
  },
  {
   "property": "C142",
   "status": "partial",
   "theorems": [
    "Trypo.C142_refuted",
    "Trypo.C142_expire_partial",
    "Trypo.C142_expire_exact_partial",
    "Trypo.C142_server_exact_partial",
    "Trypo.C142_move_centroid_partial",
    "Trypo.C142_move_partial"
   ],
   "note": "false in float64: an Expire with nothing to remove turns the vector of a node from (1,0) into (0,0), after which fast queries do not ask it (C142_refuted). Proved: Expire then changes nothing but the manager's vector in any arithmetic and nothing at all in exact arithmetic, also of any other node; MoveVector, called again, changes nothing in any arithmetic"
  },
  {
   "property": "C143",
   "status": "proved",
   "theorems": [
    "Trypo.C143_service",
    "Trypo.C143_job",
    "Trypo.C143_request",
    "Trypo.C143_query",
    "Trypo.C143_put"
   ],
   "note": ""
  },
  {
   "property": "C144",
   "status": "proved",
   "theorems": [
    "Trypo.C144_tenants",
    "Trypo.C144_alone"
   ],
   "note": ""
  },
  {
   "property": "C145",
   "status": "proved",
   "theorems": [
    "Trypo.C145_request",
    "Trypo.C145_task",
    "Trypo.C145_steal",
    "Trypo.C145_fast",
    "Trypo.C145_accurate",
    "Trypo.C145_steal_often"
   ],
   "note": "the limit of StealCentroid bounds nothing: C145_steal_often"
  },
  {
   "property": "C146",
   "status": "partial",
   "theorems": [
    "Trypo.C146_refuted",
    "Trypo.C146_exact_partial",
    "Trypo.C146_enough_partial",
    "Trypo.C146_few_partial"
   ],
   "note": "false in float64: four puts to one node that divides a centroid at four, in two orders, and the best answer to the same query is (1,1) or (1,0) (C146_refuted). Proved: in any arithmetic two states of one node with one centroid that hold the same datapoints answer equally well place by place; in exact arithmetic, for any nodes and centroids, queries that ask for enough get the same datapoints after puts in either order; in exact arithmetic one node below the threshold answers every query with the same similarities. Missing: any bound on the difference once a centroid has been divided"
  },
  {
   "property": "C147",
   "status": "partial",
   "theorems": [
    "Trypo.C147_refuted",
    "Trypo.C147_partial",
    "Trypo.C147_manager_partial",
    "Trypo.C147_service_partial"
   ],
   "note": "false in float64: (1,0) and (2^60,0) are put, drained and put back; the puts are answered with 200 and nothing is stored, because the emptied centroid is left with a zero vector by rounding (C147_refuted). Proved in exact arithmetic, for any nodes, states, orders and kinds of requests, for datapoints that do not expire (C147_partial); and in float64 for a manager, any history without MemTrim and any call that hands datapoints out, for datapoints with positive components that are not too different (C147_manager_partial); the same through the API after any session of puts and queries, for accurate draining queries (C147_service_partial). Missing: float64 for other vectors, for fast draining queries, and next to the event loop"
  },
  {
   "property": "C148",
   "status": "proved",
   "theorems": [
    "Trypo.C148_session",
    "Trypo.C148_upkeep",
    "Trypo.C148_namespaces"
   ],
   "note": ""
  },
  {
   "property": "C149",
   "status": "partial",
   "theorems": [
    "Trypo.C149_refuted",
    "Trypo.C149_concurrent_partial"
   ],
   "note": "false with StealCentroid: a stolen centroid begins with its first datapoint as its vector; if its datapoints have expired meanwhile they are taken out of that vector as if it were their mean, which can leave it zero, and then later datapoints are dropped (C149_refuted). Proved for concurrent HTTP puts and queries, tasks of event loops but load balancing, the goroutines that they start, and all RPC requests but StealCentroid, from empty nodes on. Missing: StealCentroid for datapoints that do not expire, and with it load balancing and whole iterations of the event loop"
  }
 ]
}