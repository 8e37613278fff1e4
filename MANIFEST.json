{
 "claims": [
  {
   "property": "C01",
   "status": "proved",
   "theorems": [
    "Distclus.C01_par_even_partition"
   ],
   "note": ""
  },
  {
   "property": "C02",
   "status": "proved",
   "theorems": [
    "Distclus.C02_parMapLabel_eq_mapLabel",
    "Distclus.C08_parts_schedule_independent"
   ],
   "note": ""
  },
  {
   "property": "C03",
   "status": "proved",
   "theorems": [
    "Distclus.C03_assign_nearest",
    "Distclus.C03_assign_nearest_linear",
    "Distclus.C03_assign_empty"
   ],
   "note": ""
  },
  {
   "property": "C04",
   "status": "proved",
   "theorems": [
    "Distclus.C04_nan_first_sticks",
    "Distclus.C04_nan_later_ignored",
    "Distclus.C04_negative_forgotten"
   ],
   "note": ""
  },
  {
   "property": "C05",
   "status": "proved",
   "theorems": [
    "Distclus.C05_mapLabel_assign"
   ],
   "note": ""
  },
  {
   "property": "C06",
   "status": "proved",
   "theorems": [
    "Distclus.C06_reduceDBA",
    "Distclus.C06_reduceDBA_empty"
   ],
   "note": ""
  },
  {
   "property": "C07",
   "status": "proved",
   "theorems": [
    "Distclus.C07_reduceDBA_mean"
   ],
   "note": "exact arithmetic over the reals"
  },
  {
   "property": "C08",
   "status": "proved",
   "theorems": [
    "Distclus.C08_parReduceDBA_cards",
    "Distclus.C08_parReduceDBA_means",
    "Distclus.C08_euclid",
    "Distclus.C08_parts_schedule_independent"
   ],
   "note": "cards for any space; means in exact arithmetic"
  },
  {
   "property": "C09",
   "status": "proved",
   "theorems": [
    "Distclus.C09_forLabels_mapLabel",
    "Distclus.C09_parForLabels",
    "Distclus.C09_parForLabels_cards"
   ],
   "note": "cards for any space; means in exact arithmetic"
  },
  {
   "property": "C10",
   "status": "proved",
   "theorems": [
    "Distclus.C10_reduceLoss",
    "Distclus.C10_parLoss",
    "Distclus.C10_parLossForLabels",
    "Distclus.C10_totalLoss",
    "Distclus.C10_forLabels_mapLabel"
   ],
   "note": "exact (commutative, associative) addition for the parallel versions"
  },
  {
   "property": "C11",
   "status": "proved",
   "theorems": [
    "Distclus.C11_mapLabel_minimises_loss"
   ],
   "note": "exact arithmetic over the reals"
  },
  {
   "property": "C12",
   "status": "proved",
   "theorems": [
    "Distclus.C12_dba",
    "Distclus.C12_dba_perm",
    "Distclus.C12_weightedDBA",
    "Distclus.C12_weightedDBA_perm"
   ],
   "note": "exact arithmetic over the reals"
  },
  {
   "property": "C13",
   "status": "proved",
   "theorems": [
    "Distclus.C13_infinite_keeps_all",
    "Distclus.C13_stored_prefix"
   ],
   "note": ""
  },
  {
   "property": "C14",
   "status": "proved",
   "theorems": [
    "Distclus.C14_frame_last_n",
    "Distclus.C14_frame_never_shrinks"
   ],
   "note": ""
  },
  {
   "property": "C15",
   "status": "proved",
   "theorems": [
    "Distclus.C15_staged_invisible",
    "Distclus.C15_no_loss",
    "Distclus.C15_apply"
   ],
   "note": ""
  },
  {
   "property": "C16",
   "status": "proved",
   "theorems": [
    "Distclus.C16_push_blocks_iff",
    "Distclus.C16_pipe_bounded",
    "Distclus.C16_batch_accepted_iff"
   ],
   "note": ""
  },
  {
   "property": "C17",
   "status": "proved",
   "theorems": [
    "Distclus.C17_recency_false",
    "Distclus.C17_recency_partial"
   ],
   "note": "the examined claim is refuted by a witness; the guarded version is proved"
  },
  {
   "property": "C18",
   "status": "proved",
   "theorems": [
    "Distclus.C18_no_alias_with_caller",
    "Distclus.C18_live_view",
    "Distclus.C18_infinite_view_constant",
    "Distclus.C18_frame_view_overwritten"
   ],
   "note": ""
  },
  {
   "property": "C19",
   "status": "proved",
   "theorems": [
    "Distclus.C19_nil",
    "Distclus.C19_and",
    "Distclus.C19_or",
    "Distclus.C19_iter",
    "Distclus.C19_status"
   ],
   "note": ""
  },
  {
   "property": "C20",
   "status": "proved",
   "theorems": [
    "Distclus.C20_wait_iff",
    "Distclus.C20_deadline_returns",
    "Distclus.C20_no_deadline",
    "Distclus.C20_algo_wait",
    "Distclus.C20_wait_hides_error"
   ],
   "note": ""
  },
  {
   "property": "C21",
   "status": "proved",
   "theorems": [
    "Distclus.C21_kmeans_accepts",
    "Distclus.C21_kmeans_defaults",
    "Distclus.C21_mcmc_accepts",
    "Distclus.C21_mcmc_defaults",
    "Distclus.C21_streaming_accepts",
    "Distclus.C21_streaming_defaults"
   ],
   "note": ""
  },
  {
   "property": "C22",
   "status": "proved",
   "theorems": [
    "Distclus.C22_negative_cpu_accepted",
    "Distclus.C22_par_panics_iff"
   ],
   "note": ""
  },
  {
   "property": "C40",
   "status": "proved",
   "theorems": [
    "Distclus.C40_metric",
    "Distclus.euclid_total"
   ],
   "note": "Exact arithmetic (reals): non-negative, symmetric, triangle inequality, zero iff equal; no panic on points of one dimension."
  },
  {
   "property": "C41",
   "status": "proved",
   "theorems": [
    "Distclus.C41_combine",
    "Distclus.C41_fresh",
    "Distclus.C41_copy_fresh"
   ],
   "note": "Weighted mean in exact arithmetic; fresh slices in a heap model of Go slices."
  },
  {
   "property": "C42",
   "status": "proved",
   "theorems": [
    "Distclus.C42_panics_iff",
    "Distclus.C42_surplus_ignored",
    "Distclus.C42_not_symmetric"
   ],
   "note": "Any float type: the panic condition needs no arithmetic law."
  },
  {
   "property": "C43",
   "status": "proved",
   "theorems": [
    "Distclus.C43_cosine",
    "Distclus.C43_zero_nan",
    "Distclus.cosinus_total"
   ],
   "note": "Exact arithmetic for non-zero vectors; extended reals with NaN for the zero vector."
  },
  {
   "property": "C23",
   "status": "proved",
   "theorems": [
    "Distclus.C23_iterate",
    "Distclus.C23_seq_members",
    "Distclus.C23_impl",
    "Distclus.C23_run",
    "Distclus.C23_par_bad_degree",
    "Distclus.C23_panics"
   ],
   "note": "no law on the space; the parallel strategy needs a degree of at least one, below which it panics"
  },
  {
   "property": "C24",
   "status": "proved",
   "theorems": [
    "Distclus.C24_iterate",
    "Distclus.C24_run",
    "Distclus.C24_euclid",
    "Distclus.C24_rounding_differs"
   ],
   "note": "exact arithmetic; a witness shows that a rounding mean breaks it"
  },
  {
   "property": "C25",
   "status": "proved",
   "theorems": [
    "Distclus.C25_loss_step",
    "Distclus.C25_loss_run"
   ],
   "note": "exact arithmetic over the reals"
  },
  {
   "property": "C26",
   "status": "proved",
   "theorems": [
    "Distclus.C26_given",
    "Distclus.C26_given_length"
   ],
   "note": ""
  },
  {
   "property": "C27",
   "status": "proved",
   "theorems": [
    "Distclus.C27_rand",
    "Distclus.C27_negative_panics"
   ],
   "note": ""
  },
  {
   "property": "C28",
   "status": "proved",
   "theorems": [
    "Distclus.C28_ppIter",
    "Distclus.C28_ppInitializer",
    "Distclus.C28_zero_draw_panics",
    "Distclus.euclid_pseudoMetric"
   ],
   "note": "ordered field arithmetic; a draw of exactly 0 panics"
  },
  {
   "property": "C29",
   "status": "proved",
   "theorems": [
    "Distclus.C29_weightedChoice",
    "Distclus.C29_null_iff",
    "Distclus.C29_zero_draw",
    "Distclus.C29_not_positive",
    "Distclus.C29_nan"
   ],
   "note": "ordered field arithmetic; the index -1 cases need no law"
  },
  {
   "property": "C44",
   "status": "proved",
   "theorems": [
    "Distclus.C44_C45_dtw"
   ],
   "note": "needs only a linear order and a monotone addition, so it also holds for a rounded addition; no NaN"
  },
  {
   "property": "C45",
   "status": "proved",
   "theorems": [
    "Distclus.C44_C45_dtw"
   ],
   "note": ""
  },
  {
   "property": "C46",
   "status": "proved",
   "theorems": [
    "Distclus.C46_storage",
    "Distclus.C46_matrix"
   ],
   "note": ""
  },
  {
   "property": "C47",
   "status": "proved",
   "theorems": [
    "Distclus.C47_dist_panics_iff",
    "Distclus.C47_combine_panics_iff",
    "Distclus.C47_newDTW_panics",
    "Distclus.C47_never_panics_false"
   ],
   "note": "exact panic condition; the unguarded claim is refuted by a witness"
  },
  {
   "property": "C48",
   "status": "proved",
   "theorems": [
    "Distclus.C48_symmetric_partial",
    "Distclus.C48_symmetric_false"
   ],
   "note": "the unguarded claim is refuted by a witness; the guarded version is proved"
  },
  {
   "property": "C49",
   "status": "proved",
   "theorems": [
    "Distclus.C49_identity",
    "Distclus.C49_window_mono"
   ],
   "note": ""
  },
  {
   "property": "C50",
   "status": "proved",
   "theorems": [
    "Distclus.C50_resize",
    "Distclus.C50_edge_cases"
   ],
   "note": ""
  },
  {
   "property": "C51",
   "status": "proved",
   "theorems": [
    "Distclus.C51_interpolate",
    "Distclus.C51_null_factor"
   ],
   "note": ""
  },
  {
   "property": "C52",
   "status": "proved",
   "theorems": [
    "Distclus.C52_dba",
    "Distclus.C52_combine"
   ],
   "note": ""
  },
  {
   "property": "C35",
   "status": "proved",
   "theorems": [
    "Distclus.C35_stream",
    "Distclus.C35_calls",
    "Distclus.C35_no_panic"
   ],
   "note": "Copy of the space is the identity on values"
  },
  {
   "property": "C36",
   "status": "proved",
   "theorems": [
    "Distclus.C36_push",
    "Distclus.C36_new",
    "Distclus.C21_streaming_accepts"
   ],
   "note": ""
  },
  {
   "property": "C37",
   "status": "proved",
   "theorems": [
    "Distclus.C37_cards"
   ],
   "note": ""
  },
  {
   "property": "C38",
   "status": "proved",
   "theorems": [
    "Distclus.C38_mass",
    "Distclus.C38_euclid"
   ],
   "note": "exact arithmetic over the reals"
  },
  {
   "property": "C39",
   "status": "proved",
   "theorems": [
    "Distclus.C39_monotone",
    "Distclus.C39_outlier",
    "Distclus.C39_zero_distance",
    "Distclus.zeroTest_xreal"
   ],
   "note": "order laws of floats including NaN"
  },
  {
   "property": "C69",
   "status": "proved",
   "theorems": [
    "Distclus.C69_reinit"
   ],
   "note": "the examined claim is refuted for every state with a cluster"
  },
  {
   "property": "C70",
   "status": "proved",
   "theorems": [
    "Distclus.C70_process",
    "Distclus.C70_decision"
   ],
   "note": ""
  },
  {
   "property": "C71",
   "status": "proved",
   "theorems": [
    "Distclus.C71_copy"
   ],
   "note": "the examined claim is refuted; exact behaviour proved"
  },
  {
   "property": "C30",
   "status": "proved",
   "theorems": [
    "Distclus.C30_range",
    "Distclus.C30_moves",
    "Distclus.C30_accepted",
    "Distclus.C30_no_panic",
    "Distclus.initContract_given",
    "Distclus.initContract_rand",
    "Distclus.initContract_pp",
    "Distclus.C30_four_weights_panic",
    "Distclus.C30_zero_weights"
   ],
   "note": "range and moves need only -1 < 0; absence of panic in exact arithmetic; panic with four weights by witness"
  },
  {
   "property": "C31",
   "status": "proved",
   "theorems": [
    "Distclus.C31_store_contents",
    "Distclus.C31_get_stored",
    "Distclus.C31_get_new",
    "Distclus.C31_get_add",
    "Distclus.C31_size_gap"
   ],
   "note": ""
  },
  {
   "property": "C32",
   "status": "proved",
   "theorems": [
    "Distclus.C32_iterate",
    "Distclus.C32_count",
    "Distclus.C32_at_most",
    "Distclus.C32_ratio_ge_one",
    "Distclus.C32_improvement_accepted",
    "Distclus.C32_restart_false"
   ],
   "note": "order laws of floats; the improvement claim in exact arithmetic with the Dirac distribution"
  },
  {
   "property": "C33",
   "status": "proved",
   "theorems": [
    "Distclus.C33_builds_once",
    "Distclus.C33_exclusive",
    "Distclus.C33_no_deadlock"
   ],
   "note": "sequentially consistent memory: the double-checked read of buildable is a data race under the Go memory model"
  },
  {
   "property": "C34",
   "status": "proved",
   "theorems": [
    "Distclus.C34_panics_iff",
    "Distclus.C34_symmetric",
    "Distclus.C34_translation",
    "Distclus.C34_decreasing",
    "Distclus.C34_maximum"
   ],
   "note": "exact arithmetic over the reals"
  },
  {
   "property": "C72",
   "status": "proved",
   "theorems": [
    "Distclus.C72_loss_partial",
    "Distclus.C72_loss_false"
   ],
   "note": "the examined claim is refuted by a witness; the guarded version is proved"
  },
  {
   "property": "C73",
   "status": "proved",
   "theorems": [
    "Distclus.C73_sample",
    "Distclus.C73_pdf_scale",
    "Distclus.C73_pdf_sample_mismatch"
   ],
   "note": "the examined claim is refuted in every dimension; exact arithmetic over the reals"
  },
  {
   "property": "C53",
   "status": "proved",
   "theorems": [
    "Distclus.C53_coherent",
    "Distclus.C53_history",
    "Distclus.C53_observed"
   ],
   "note": "every reachable state of the transition system of the controller"
  },
  {
   "property": "C54",
   "status": "proved",
   "theorems": [
    "Distclus.C54_refused",
    "Distclus.C54_interleaved",
    "Distclus.C54_init_end",
    "Distclus.C54_accepted"
   ],
   "note": ""
  },
  {
   "property": "C55",
   "status": "proved",
   "theorems": [
    "Distclus.C55_counters",
    "Distclus.C55_figures",
    "Distclus.C55_pushes",
    "Distclus.C55_iterations"
   ],
   "note": "since the last reset of the counters: init on Finished resets them, init on Created does not"
  },
  {
   "property": "C64",
   "status": "proved",
   "theorems": [
    "Distclus.C64_notified",
    "Distclus.C64_all"
   ],
   "note": "delivery to the notification loop; the loop then calls the notifier once per delivery (step nl1)"
  },
  {
   "property": "C66",
   "status": "proved",
   "theorems": [
    "Distclus.C66_decision",
    "Distclus.C66_start",
    "Distclus.C66_period",
    "Distclus.C66_overlap_loses_start"
   ],
   "note": "the unguarded claim is refuted for overlapping pushes by a witness"
  },
  {
   "property": "C59",
   "status": "proved",
   "theorems": [
    "Distclus.C59_failed_play"
   ],
   "note": "the examined claim is refuted for every state at that return and every continuation"
  },
  {
   "property": "C60",
   "status": "proved",
   "theorems": [
    "Distclus.C60_orphan",
    "Distclus.C60_pause_at_end"
   ],
   "note": "the examined claim is refuted by a witness; the blocking is proved for every continuation"
  },
  {
   "property": "C61",
   "status": "proved",
   "theorems": [
    "Distclus.C61_push_recover",
    "Distclus.C61_witness"
   ],
   "note": "the examined claim is refuted by a witness; the blocking is proved for every continuation"
  },
  {
   "property": "C62",
   "status": "proved",
   "theorems": [
    "Distclus.C62_two_runs"
   ],
   "note": "the examined claim is refuted by a witness"
  },
  {
   "property": "C63",
   "status": "proved",
   "theorems": [
    "Distclus.C63_notifier",
    "Distclus.C63_witness"
   ],
   "note": "the examined claim is refuted by a witness; the blocking is proved for every continuation"
  },
  {
   "property": "C74",
   "status": "proved",
   "theorems": [
    "Distclus.C74_two_pauses",
    "Distclus.C60_orphan"
   ],
   "note": "the examined claim is refuted by a witness; the blocking is proved for every continuation"
  },
  {
   "property": "C75",
   "status": "proved",
   "theorems": [
    "Distclus.C75_two_resumes"
   ],
   "note": "the examined claim is refuted by a witness, for any number of further iterations"
  },
  {
   "property": "C76",
   "status": "proved",
   "theorems": [
    "Distclus.C76_stop_overtaken"
   ],
   "note": "the examined claim is refuted by a witness"
  },
  {
   "property": "C77",
   "status": "proved",
   "theorems": [
    "Distclus.C77_push_reinit",
    "Distclus.C77_witness"
   ],
   "note": "the examined claim is refuted by a witness; the blocking is proved for every continuation"
  },
  {
   "property": "C78",
   "status": "proved",
   "theorems": [
    "Distclus.C78_push_writer",
    "Distclus.C78_witness"
   ],
   "note": "the examined claim is refuted by a witness; the blocking is proved for every continuation"
  },
  {
   "property": "C79",
   "status": "proved",
   "theorems": [
    "Distclus.C79_play_at_end"
   ],
   "note": "the examined claim is refuted by a witness"
  },
  {
   "property": "C56",
   "status": "proved",
   "theorems": [
    "Distclus.C56_limit",
    "Distclus.C56_one_run",
    "Distclus.C56_overlap"
   ],
   "note": "the unguarded claim is refuted by a witness"
  },
  {
   "property": "C57",
   "status": "proved",
   "theorems": [
    "Distclus.C57_after_init",
    "Distclus.C57_saved",
    "Distclus.C57_error",
    "Distclus.C57_panic",
    "Distclus.C57_error_lost"
   ],
   "note": "that the error remains is refuted by a witness"
  },
  {
   "property": "C65",
   "status": "proved",
   "theorems": [
    "Distclus.C65_close",
    "Distclus.C65_unlock",
    "Distclus.C65_holder"
   ],
   "note": ""
  },
  {
   "property": "C67",
   "status": "proved",
   "theorems": [
    "Distclus.C67_data",
    "Distclus.C67_same_future",
    "Distclus.C67_full_frame",
    "Distclus.C67_evicts_newest",
    "Distclus.C67_independent"
   ],
   "note": "Copy takes no lock; the copy is taken while nobody uses the original; that a full copy evicts the oldest element is refuted by a witness"
  },
  {
   "property": "C68",
   "status": "proved",
   "theorems": [
    "Distclus.C68_fired",
    "Distclus.C68_last",
    "Distclus.C68_interrupts",
    "Distclus.C68_stale",
    "Distclus.C68_stale_run"
   ],
   "note": "time.Sleep itself is not modelled: a time-out can wake up at any moment; the examined claim is refuted by witnesses"
  },
  {
   "property": "C80",
   "status": "proved",
   "theorems": [
    "Distclus.C80_two_runs",
    "Distclus.C80_lost_play"
   ],
   "note": "the examined claim is refuted by witnesses"
  },
  {
   "property": "C81",
   "status": "proved",
   "theorems": [
    "Distclus.C81_push_alone",
    "Distclus.C78_push_writer"
   ],
   "note": "the examined claim is refuted by a witness; the blocking is proved for every continuation"
  },
  {
   "property": "C58",
   "status": "proved",
   "theorems": [
    "Distclus.C58_results",
    "Distclus.C58_status",
    "Distclus.C58_returns"
   ],
   "note": "Every sequence of calls of one client and every schedule. The hypotheses (no failing Init/Iterate, no Stop on Idle, no limits, no automatic start, plain Wait) are needed: C59, C80, C81 refute the claim without them. Return is possibility from every reachable state (no reachable state is stuck), not a bound on the scheduler."
  },
  {
   "property": "C82",
   "status": "proved",
   "theorems": [
    "Distclus.C82_results",
    "Distclus.C82_status",
    "Distclus.C82_limit",
    "Distclus.C82_bound",
    "Distclus.C82_batch",
    "Distclus.C82_returns",
    "Distclus.C82_forgets"
   ],
   "note": "One client, any number of runs (Rebatching: a run is started only when the goroutine of the former one is over; C91 shows what happens otherwise), no failing Init/Iterate, no time-out, no Finishing, no DataPerIter. Return is possibility from every reachable state."
  },
  {
   "property": "C83",
   "status": "proved",
   "theorems": [
    "Distclus.C83_ratio",
    "Distclus.C83_balance"
   ],
   "note": "exact real arithmetic; the time is the number of stored data"
  },
  {
   "property": "C84",
   "status": "proved",
   "theorems": [
    "Distclus.C84_constant",
    "Distclus.C84_not_density"
   ],
   "note": "exact real arithmetic; the examined claim is refuted for every state and draw which moves a centroid"
  },
  {
   "property": "C85",
   "status": "proved",
   "theorems": [
    "Distclus.C85_serial",
    "Distclus.C85_serial_batch",
    "Distclus.C85_two_clients"
   ],
   "note": "Serial replays the record of the calls of the implementation; the claim for several clients is refuted (C85_two_clients). Hypotheses on the client as in C58 and C82; the implementation does not fail."
  },
  {
   "property": "C86",
   "status": "proved",
   "theorems": [
    "Distclus.C86_composition",
    "Distclus.C86_centroids"
   ],
   "note": "Hypotheses on the client as in C82; Computes f says that the implementation is a function of the centroids and of the rank of the iteration."
  },
  {
   "property": "C87",
   "status": "proved",
   "theorems": [
    "Distclus.C87_kmeans",
    "Distclus.C87_count",
    "Distclus.C87_loss"
   ],
   "note": "Buffered replays the pushes, Init and Iterate of kmeans.Impl on the record with a DataBuffer. Hypotheses on the client as in C82 but one Play only (Batching), and Play is not called on a Ready algorithm (see C88 for that case; C133 for any number of runs)."
  },
  {
   "property": "C88",
   "status": "proved",
   "theorems": [
    "Distclus.C88_first_iteration",
    "Distclus.C88_not_seen",
    "Distclus.C88_capacity"
   ],
   "note": "The expectation that the first iteration works on all the data pushed is refuted (C88_not_seen)."
  },
  {
   "property": "C89",
   "status": "proved",
   "theorems": [
    "Distclus.C89_strict",
    "Distclus.C89_stationary",
    "Distclus.C89_converges",
    "Distclus.C89_batch",
    "Distclus.C89_rounding"
   ],
   "note": "Exact real arithmetic; the loss is TotalLoss with norm 2. Hypotheses of C89_batch on the client as in C87."
  },
  {
   "property": "C90",
   "status": "proved",
   "theorems": [
    "Distclus.C90_writes",
    "Distclus.C90_push_crashes",
    "Distclus.C90_end_crashes",
    "Distclus.C90_where",
    "Distclus.C90_safe",
    "Distclus.C90_frozen",
    "Distclus.C90_coherent",
    "Distclus.C90_values",
    "Distclus.C90_counts"
   ],
   "note": "The examined claim is refuted by C90_push_crashes and C90_end_crashes; the others hold for every execution. A map write is two steps (begin, end) and a read during a write is the fatal error, as the runtime checks it."
  },
  {
   "property": "C91",
   "status": "proved",
   "theorems": [
    "Distclus.C91_second_batch"
   ],
   "note": "The examined claim is refuted by the execution of the theorem; C82 is the positive statement."
  },
  {
   "property": "C92",
   "status": "proved",
   "theorems": [
    "Distclus.C92_races",
    "Distclus.C92_workflow",
    "Distclus.C92_batch",
    "Distclus.C92_not_one",
    "Distclus.C92_not_two",
    "Distclus.C92_reads",
    "Distclus.C92_writes"
   ],
   "note": "The accesses are a table by program counter; C92_reads and C92_writes prove that it covers what the transition system reads and writes. The examined claim is refuted by C92_not_one."
  },
  {
   "property": "C93",
   "status": "proved",
   "theorems": [
    "Distclus.C93_source",
    "Distclus.C93_given",
    "Distclus.C93_kept",
    "Distclus.C93_kmeans",
    "Distclus.C93_nil",
    "Distclus.C93_not_nil"
   ],
   "note": "Any number of clients. Works says what the implementation returned; for k-means it is discharged by C23 and the initializers by C26."
  },
  {
   "property": "C94",
   "status": "proved",
   "theorems": [
    "Distclus.C94_since_start",
    "Distclus.C94_window",
    "Distclus.C94_period",
    "Distclus.C94_per_second",
    "Distclus.C94_not_max",
    "Distclus.C94_unlimited",
    "Distclus.C94_steady",
    "Distclus.C94_late"
   ],
   "note": "The claim of the comment in core/conf.go (maximal number of iterations per second) is refuted by C94_not_max; the bounds which hold are proved. The rounding of the division in the period is not modelled."
  },
  {
   "property": "C95",
   "status": "proved",
   "theorems": [
    "Distclus.C95_run",
    "Distclus.C95_during",
    "Distclus.C95_sum",
    "Distclus.C95_reset",
    "Distclus.C95_monotone",
    "Distclus.C95_period",
    "Distclus.C95_not_iterating"
   ],
   "note": "Runs one after the other. The claim that the duration is the time spent iterating is refuted by C95_not_iterating."
  },
  {
   "property": "C96",
   "status": "proved",
   "theorems": [
    "Distclus.C96_play",
    "Distclus.C96_init",
    "Distclus.C96_released",
    "Distclus.C96_again",
    "Distclus.C96_next_play"
   ],
   "note": "The claim that the panic is contained is refuted for every execution and continuation; the panics themselves are C97_panic, C28_zero_draw_panics."
  },
  {
   "property": "C97",
   "status": "proved",
   "theorems": [
    "Distclus.C97_given",
    "Distclus.C97_check",
    "Distclus.C97_null_set",
    "Distclus.C97_success",
    "Distclus.C97_panic",
    "Distclus.C97_predict_panics",
    "Distclus.C97_predict",
    "Distclus.C97_predict_nil",
    "Distclus.C97_shown",
    "Distclus.C97_after_failure",
    "Distclus.givenFull_short",
    "Distclus.randFull_short",
    "Distclus.ppFull_short"
   ],
   "note": "The claim is refuted by C97_check and C97_after_failure; strings.ToLower is a parameter."
  },
  {
   "property": "C98",
   "status": "proved",
   "theorems": [
    "Distclus.C98_dist",
    "Distclus.C98_binary64",
    "Distclus.C98_dtw",
    "Distclus.C98_zero_distinct"
   ],
   "note": "For any rounding of the class Rounding, of which binary64 is proved to be an instance; overflow and fused multiply-add are not described. The examined claim is refuted by C98_zero_distinct."
  },
  {
   "property": "C99",
   "status": "proved",
   "theorems": [
    "Distclus.C99_nearest",
    "Distclus.C99_margin",
    "Distclus.C99_binary64"
   ],
   "note": "Same arithmetic as C98."
  },
  {
   "property": "C100",
   "status": "proved",
   "theorems": [
    "Distclus.C100_combine",
    "Distclus.C100_iterate",
    "Distclus.C100_strategies",
    "Distclus.C100_counts",
    "Distclus.C100_binary64",
    "Distclus.C100_strategies_differ"
   ],
   "note": "Same arithmetic as C98. The examined claim is refuted by C100_strategies_differ; in exact arithmetic it holds (C08, C24)."
  },
  {
   "property": "C101",
   "status": "proved",
   "theorems": [
    "Distclus.C101_loss_step",
    "Distclus.C101_increases"
   ],
   "note": "Same arithmetic as C98. The examined claim is refuted by C101_increases; in exact arithmetic it holds (C25)."
  },
  {
   "property": "C102",
   "status": "proved",
   "theorems": [
    "Distclus.C102_weightedChoice",
    "Distclus.C102_weightedChoice_ok",
    "Distclus.C102_ppIter",
    "Distclus.C102_ppInitializer",
    "Distclus.C102_not_squared"
   ],
   "note": "Exact arithmetic; probabilities are Lebesgue measures, of the cube for several draws. The examined claim is refuted by C102_not_squared. The first position of PPInitializer is given."
  },
  {
   "property": "C103",
   "status": "proved",
   "theorems": [
    "Distclus.C103_positions",
    "Distclus.C103_uniform",
    "Distclus.C103_termination",
    "Distclus.C103_limit"
   ],
   "note": "Counts of sequences of draws; the copies of the elements are pairwise different for the counts of lists."
  },
  {
   "property": "C104",
   "status": "proved",
   "theorems": [
    "Distclus.C104_accept",
    "Distclus.C104_nextK",
    "Distclus.C104_balance"
   ],
   "note": "Exact arithmetic; the density of a proposal is the one kept with it, as in C83."
  },
  {
   "property": "C105",
   "status": "proved",
   "theorems": [
    "Distclus.C105_createInitializer",
    "Distclus.C105_unknown",
    "Distclus.C105_given",
    "Distclus.C105_pp_rand",
    "Distclus.C105_status"
   ],
   "note": "unicode.ToLower is any function with the usual values on the seven-bit characters."
  },
  {
   "property": "C106",
   "status": "proved",
   "theorems": [
    "Distclus.C106_nearest",
    "Distclus.C106_iterate",
    "Distclus.C106_kmeans",
    "Distclus.C106_loss",
    "Distclus.C106_given",
    "Distclus.C106_rand",
    "Distclus.C106_pp",
    "Distclus.C106_streaming",
    "Distclus.C106_streaming_needs_init"
   ],
   "note": "Exact arithmetic."
  },
  {
   "property": "C107",
   "status": "proved",
   "theorems": [
    "Distclus.C107_iterate",
    "Distclus.C107_repeat",
    "Distclus.C107_run",
    "Distclus.C107_loss",
    "Distclus.C107_rounding_differs"
   ],
   "note": "Exact arithmetic, for any space whose Combine is the weighted mean in C107_iterate and C107_repeat; the claim for float64 is refuted by C107_rounding_differs."
  },
  {
   "property": "C108",
   "status": "proved",
   "theorems": [
    "Distclus.C108_values",
    "Distclus.C108_view",
    "Distclus.C108_iterate",
    "Distclus.C108_live",
    "Distclus.C108_init",
    "Distclus.C108_foreign",
    "Distclus.C108_client_write",
    "Distclus.C108_stable_false"
   ],
   "note": "The stability of the clustering is refuted by C108_stable_false; the other theorems say what holds instead."
  },
  {
   "property": "C109",
   "status": "proved",
   "theorems": [
    "Distclus.C109_mixed",
    "Distclus.C109_quiet",
    "Distclus.C109_distance_false"
   ],
   "note": "Reads of single elements are atomic and see a state between two calls (an Iterate writes at most one element that exists); the claim on the distance is refuted by C109_distance_false."
  },
  {
   "property": "C110",
   "status": "proved",
   "theorems": [
    "Distclus.C110_no_panic",
    "Distclus.C110_iterate",
    "Distclus.C110_init",
    "Distclus.C110_centroids",
    "Distclus.C110_means"
   ],
   "note": "The hypothesis Streamed says that the results of the implementation in the record are those of streaming.Impl used by one goroutine at a time (which the controller guarantees for one client, C85)."
  },
  {
   "property": "C111",
   "status": "proved",
   "theorems": [
    "Distclus.C111_batch",
    "Distclus.C111_hang",
    "Distclus.C111_perData"
   ],
   "note": "The claim that Batch returns is refuted by C111_hang and C111_perData."
  },
  {
   "property": "C112",
   "status": "proved",
   "theorems": [
    "Distclus.C112_history",
    "Distclus.C112_centroids",
    "Distclus.C112_moves",
    "Distclus.C112_acceptations",
    "Distclus.C112_batch",
    "Distclus.C112_second_batch"
   ],
   "note": "The hypothesis Sampled says that the results of the implementation in the record are those of mcmc.Impl, whatever the draws. The claim on the acceptations is refuted by C112_second_batch."
  },
  {
   "property": "C113",
   "status": "proved",
   "theorems": [
    "Distclus.C113_init",
    "Distclus.C113_play",
    "Distclus.C113_play_err",
    "Distclus.C113_pause",
    "Distclus.C113_stop",
    "Distclus.C113_wait",
    "Distclus.C113_wait_err",
    "Distclus.C113_pause_false",
    "Distclus.C113_stop_false"
   ],
   "note": "Any number of clients. C113_pause_false and C113_stop_false are executions which refute the stronger claims (the second with one client)."
  },
  {
   "property": "C114",
   "status": "proved",
   "theorems": [
    "Distclus.C114_euclid",
    "Distclus.C114_mcmc",
    "Distclus.C114_ratio",
    "Distclus.C114_dtw",
    "Distclus.C114_dtw_partial",
    "Distclus.C114_dtw_false"
   ],
   "note": "For series the examined claim is refuted by a witness; the guarded version is proved."
  },
  {
   "property": "C115",
   "status": "proved",
   "theorems": [
    "Distclus.C115_pdf",
    "Distclus.C115_default",
    "Distclus.C115_total",
    "Distclus.C115_law",
    "Distclus.C115_not_density"
   ],
   "note": "Exact arithmetic over the reals, math.Gamma and math.Pi being Real.Gamma and Real.pi. The laws of gonum's normal and chi-squared generators are assumed."
  },
  {
   "property": "C116",
   "status": "proved",
   "theorems": [
    "Distclus.C116_element",
    "Distclus.C116_sequence",
    "Distclus.C116_mono",
    "Distclus.C116_median",
    "Distclus.C116_first",
    "Distclus.C116_positive",
    "Distclus.C116_equal"
   ],
   "note": "Exact arithmetic over the reals; the law of gonum's normal generator is assumed. The examined claim is refuted by C116_equal."
  },
  {
   "property": "C117",
   "status": "proved",
   "theorems": [
    "Distclus.C117_returns",
    "Distclus.C117_no_deadlock",
    "Distclus.C117_spin"
   ],
   "note": "Progress is a hypothesis on the scheduler and on the implementation (its calls return); the examined claim is refuted by C117_spin."
  },
  {
   "property": "C118",
   "status": "proved",
   "theorems": [
    "Distclus.C118_positions",
    "Distclus.C118_unbounded",
    "Distclus.C118_room",
    "Distclus.C118_elements",
    "Distclus.C118_torn"
   ],
   "note": "The header returned by Data() and each element are read in one step; copy reads in increasing order. The examined claim is refuted by C118_torn."
  },
  {
   "property": "C119",
   "status": "proved",
   "theorems": [
    "Distclus.C119_returns",
    "Distclus.C119_starved"
   ],
   "note": "Fair is strong fairness for each goroutine; it supposes that a mutex is given in the end to a goroutine which waits for it (sync.Mutex has a starvation mode, sync.RWMutex blocks new readers behind a writer). The examined claim is refuted by C119_starved."
  },
  {
   "property": "C120",
   "status": "proved",
   "theorems": [
    "Distclus.C120_constant",
    "Distclus.C120_kept",
    "Distclus.C120_limit",
    "Distclus.C120_lowered",
    "Distclus.C120_raised",
    "Distclus.C120_neverFinish",
    "Distclus.C120_wait_hangs"
   ],
   "note": "the limit is proved for executions in which at most one goroutine at a time is between the test of the limit and the record of an iteration (as C56 with m = 1); the fields read in one action are written together; the values written are not checked by the code and taken as naturals here; memory is sequentially consistent"
  },
  {
   "property": "C121",
   "status": "proved",
   "theorems": [
    "Distclus.C121_one",
    "Distclus.C121_batch",
    "Distclus.C121_stuck"
   ],
   "note": "exact real arithmetic; Euclidean space; norm 2; C121_batch under the hypotheses of C89_batch (one client, buffer without window); C121_stuck refutes the claim for two or more centroids (two are used)"
  },
  {
   "property": "C122",
   "status": "proved",
   "theorems": [
    "Distclus.C122_guarantee",
    "Distclus.C122_measurable",
    "Distclus.C122_error",
    "Distclus.C122_norm2",
    "Distclus.C122_others",
    "Distclus.C122_iteration"
   ],
   "note": "exact real arithmetic; src.Intn uniform on the positions, src.Float64 uniform on [0,1), independent; no centroids returned counts for no loss (C122_error says when this happens); the claims examined are refuted by C122_norm2, C122_others, C122_iteration"
  },
  {
   "property": "C123",
   "status": "proved",
   "theorems": [
    "Distclus.C123_step",
    "Distclus.C123_run",
    "Distclus.C123_norms",
    "Distclus.C123_norm2"
   ],
   "note": "exact real arithmetic; data of equal norm; the claims without this hypothesis, or with norm 2, are refuted by C123_norms and C123_norm2"
  },
  {
   "property": "C124",
   "status": "proved",
   "theorems": [
    "Distclus.C124_same",
    "Distclus.C124_seq",
    "Distclus.C124_par_crash",
    "Distclus.C124_par_ok",
    "Distclus.C124_larger",
    "Distclus.C124_no_centroid",
    "Distclus.C124_loss",
    "Distclus.C124_euclid",
    "Distclus.C124_cosinus",
    "Distclus.C124_par_worse",
    "Distclus.C124_par_panic"
   ],
   "note": "no law of arithmetic but -1 < 0; C124_euclid and C124_cosinus show that the two spaces meet the hypothesis Sized of the others; what the other goroutines do in the instant before the process ends is not described; the claims examined are refuted by C124_par_worse and C124_par_panic"
  },
  {
   "property": "C125",
   "status": "proved",
   "theorems": [
    "Distclus.C125",
    "Distclus.C125_locks",
    "Distclus.C125_caller",
    "Distclus.C125_run"
   ],
   "note": "the callers of Push and Wait recover the panic; a panic of impl.Init is C96, one of Iterate is an action of the model, one of the notifier ends the process; all the theorems on the states of reachable algorithms carry over by C125"
  },
  {
   "property": "C126",
   "status": "proved",
   "theorems": [
    "Distclus.C126_spaces",
    "Distclus.C126_kmeans",
    "Distclus.C126_collapsed",
    "Distclus.C126_kmeans_run",
    "Distclus.C126_stream",
    "Distclus.C126_stream_run",
    "Distclus.C126_mcmc_reject",
    "Distclus.C126_mcmc_init",
    "Distclus.C126_mcmc_frozen"
   ],
   "note": "laws: those of the order, -1 < 0 and NanLaws (NaN is absorbing), proved of the extended reals with NaN; the power of a NaN with the exponent of the configuration is NaN (Go: unless the exponent is 0); the DTW space is not covered; repeated Init of streaming is not in C126_stream_run"
  },
  {
   "property": "C127",
   "status": "proved",
   "theorems": [
    "Distclus.C127_prefix",
    "Distclus.C127_calls",
    "Distclus.C127_result",
    "Distclus.C127_reproducible",
    "Distclus.C127_buffer",
    "Distclus.C127_mcmc",
    "Distclus.C127_hasty"
   ],
   "note": "the machine answers Iterate in one step, which is what the implementations do when nothing is pushed during a run; a generator shared with another algorithm is outside (the state of the machine is its own)"
  },
  {
   "property": "C128",
   "status": "proved",
   "theorems": [
    "Distclus.C128_mcmc",
    "Distclus.C128_kmeans_copy",
    "Distclus.C128_copy_draws",
    "Distclus.C128_copy_shares",
    "Distclus.C128_copy_disturbs"
   ],
   "note": "the calls of the two algorithms are interleaved and do not overlap; the state of a generator and its draws are arbitrary"
  },
  {
   "property": "C129",
   "status": "proved",
   "theorems": [
    "Distclus.C129_safe",
    "Distclus.C129_panics",
    "Distclus.C129_never_settles",
    "Distclus.C129_loss_grows",
    "Distclus.C129_loss_grows_two",
    "Distclus.C129_order",
    "Distclus.C129_par_differs"
   ],
   "note": "C129_safe is for any arithmetic with a monotone addition; the witnesses are in exact rational arithmetic with inner distance |x - y|"
  },
  {
   "property": "C130",
   "status": "proved",
   "theorems": [
    "Distclus.C130_first",
    "Distclus.C130_next",
    "Distclus.C130_run",
    "Distclus.C130_single",
    "Distclus.C130_stream_early",
    "Distclus.C130_stream_late",
    "Distclus.C130_stream_first",
    "Distclus.C130_stream_merges",
    "Distclus.C130_stream_run",
    "Distclus.C130_spaces",
    "Distclus.C130_cosine",
    "Distclus.C130_signs"
   ],
   "note": "the theorems on runs are for any space in which the bad elements are infinitely far from the good ones; C130_spaces and C130_cosine prove that the Euclidean points over the reals with IEEE specials are such, and that in the cosine space they are as bad as NaN. Overflow of finite values is not modelled"
  },
  {
   "property": "C131",
   "status": "proved",
   "theorems": [
    "Distclus.C131_distances",
    "Distclus.C131_combine",
    "Distclus.C131_kmeans",
    "Distclus.C131_kmeans_any",
    "Distclus.C131_cosine",
    "Distclus.C131_streaming",
    "Distclus.C131_float64",
    "Distclus.C131_nan",
    "Distclus.C131_mean_overflow",
    "Distclus.C131_dist_overflow",
    "Distclus.C131_label_overflow"
   ],
   "note": "for every format with room (Room): the bound times the number of data, and four times its square times the dimension, do not overflow; C131_float64 is the instance. No fused multiply-add, one zero"
  },
  {
   "property": "C132",
   "status": "proved",
   "theorems": [
    "Distclus.C132_centres",
    "Distclus.C132_mass",
    "Distclus.C132_float64",
    "Distclus.C132_frozen"
   ],
   "note": "as C131 for the arithmetic; the error is not claimed to be the best"
  },
  {
   "property": "C133",
   "status": "proved",
   "theorems": [
    "Distclus.C133_views",
    "Distclus.C133_batches",
    "Distclus.C133_again",
    "Distclus.C133_count",
    "Distclus.C133_stationary",
    "Distclus.C133_mean",
    "Distclus.C133_not_seen"
   ],
   "note": "generalises C87 to C89 and C121_batch from one Play to any number of runs (Rebatching). plan, views, atInit and seen are functions of the calls of the client, resp. of the implementation (Spec/CtrlPlan, Spec/CtrlAgain); the expectation that a second run sees the elements which caused it is refuted (C133_not_seen)"
  },
  {
   "property": "C134",
   "status": "proved",
   "theorems": [
    "Distclus.C134_upper",
    "Distclus.C134_lower",
    "Distclus.C134_ends",
    "Distclus.C134_zero",
    "Distclus.C134_weak_triangle",
    "Distclus.C134_triangle_false",
    "Distclus.C134_no_constant"
   ],
   "note": "costs in any ordered commutative monoid with a greatest element (exact arithmetic). The triangle inequality is refuted by a witness (C134_triangle_false) and, for every factor, by a family (C134_no_constant); a version with factors is proved"
  },
  {
   "property": "C135",
   "status": "proved",
   "theorems": [
    "Distclus.C135_nan_b",
    "Distclus.C135_negative_b",
    "Distclus.C135_dimension",
    "Distclus.C135_threshold",
    "Distclus.C135_amp_default",
    "Distclus.C135_amp_blind",
    "Distclus.C135_amp_accepts",
    "Distclus.C135_pdf_blind"
   ],
   "note": "the claim that an accepted configuration works is refuted, for all data and histories. math.Gamma is any function which is +Inf at the numbers from 172 on (the correctly rounded one is, roundGamma_overflows); C135_threshold is about the correctly rounded one; log, exp, sqrt correctly rounded"
  },
  {
   "property": "C136",
   "status": "proved",
   "theorems": [
    "Distclus.C136_unbounded",
    "Distclus.C136_probability",
    "Distclus.C136_negative_ratio",
    "Distclus.C136_repeat"
   ],
   "note": "the claim that the spread of the data bounds the number of centres is refuted; exact arithmetic over the reals; C136_probability takes norm.Rand as normal with mean Mu and standard deviation Sigma, the draws being independent (as C116)"
  },
  {
   "property": "C137",
   "status": "proved",
   "theorems": [
    "Distclus.C137_distance",
    "Distclus.C137_self",
    "Distclus.C137_loss",
    "Distclus.C137_reject",
    "Distclus.C137_frozen",
    "Distclus.C137_init",
    "Distclus.C137_own",
    "Distclus.C137_recovers",
    "Distclus.C137_seeks_infinity",
    "Distclus.C137_negative_amp",
    "Distclus.C137_prefers_loss"
   ],
   "note": "the claim that mcmc rejects outliers is refuted for data which are not finite (they stop mcmc instead) and confirmed in that no such proposal is accepted; numbers are Ieee f (level e), C137_prefers_loss is over the reals; that Amp is not negative and that the draws are not negative are hypotheses of the rejection"
  },
  {
   "property": "C138",
   "status": "proved",
   "theorems": [
    "Distclus.C138_reduceDBA",
    "Distclus.C138_reduceLoss",
    "Distclus.C138_dbaForLabels",
    "Distclus.C138_parDbaForLabels",
    "Distclus.C138_hidden_labels",
    "Distclus.C138_exact_capacity",
    "Distclus.C138_lossForLabels"
   ],
   "note": "the claim that the parallel functions for labels panic as the sequential ones do is refuted by slices with spare capacity (C138_hidden_labels) and holds without spare capacity (C138_exact_capacity); panics of the space itself are C42, C47 and C124; a panic of a worker ends the process"
  },
  {
   "property": "C139",
   "status": "proved",
   "theorems": [
    "Distclus.C139_total",
    "Distclus.C139_parTotal",
    "Distclus.C139_rounding",
    "Distclus.C139_seq_par",
    "Distclus.C139_euclid",
    "Distclus.C139_binary64",
    "Distclus.C139_differ"
   ],
   "note": "the claim that the two losses are equal is refuted in float64 (C139_differ); overflow is excluded (C131 says when there is none); the square is taken correctly rounded: math.Pow(x, 2) multiplies the mantissa once"
  },
  {
   "property": "C140",
   "status": "proved",
   "theorems": [
    "Distclus.C140_error",
    "Distclus.C140_binary64",
    "Distclus.C140_nearest",
    "Distclus.C140_passed_over",
    "Distclus.C140_own_label",
    "Distclus.C140_kmeans",
    "Distclus.C140_symmetry",
    "Distclus.C140_streaming"
   ],
   "note": "the claims that an element equal to a centroid gets its label, that k-means keeps a clustering of loss zero, that equal data give one streaming centre and that the distance is symmetric are refuted in float64; overflow and underflow excluded; the witnesses use exact sums of products, so that a fused multiply-add changes nothing"
  },
  {
   "property": "C141",
   "status": "proved",
   "theorems": [
    "Distclus.C141_choice",
    "Distclus.C141_null",
    "Distclus.C141_ppIter",
    "Distclus.C141_binary64",
    "Distclus.C141_integers",
    "Distclus.C141_panics",
    "Distclus.C141_default",
    "Distclus.C141_pp_panics"
   ],
   "note": "the claim that a draw below 1 never panics is refuted in float64 by C141_panics (mcmc) and C141_pp_panics (k-means++); overflow excluded; draws are any numbers represented, those of rand.Float64 are multiples of 2^-53"
  },
  {
   "property": "C142",
   "status": "proved",
   "theorems": [
    "Distclus.C142_see_kmeans",
    "Distclus.C142_iterate",
    "Distclus.C142_run",
    "Distclus.C142_given",
    "Distclus.C142_rand",
    "Distclus.C142_pp",
    "Distclus.C142_kmeans",
    "Distclus.C142_stream",
    "Distclus.C142_stream_write",
    "Distclus.C142_see_stream",
    "Distclus.C142_reused",
    "Distclus.C142_pp_shared"
   ],
   "note": "the claim that a vector may be reused after Push is refuted by C142_reused (streaming) and C142_pp_shared (k-means++ before an iteration); the existing polymorphic model runs on references; clients who write in the centroids they read, and writes concurrent with a call, are not in this model"
  },
  {
   "property": "C143",
   "status": "proved",
   "theorems": [
    "Distclus.C143_stored",
    "Distclus.C143_settled",
    "Distclus.C143_frozen",
    "Distclus.C143_ratio",
    "Distclus.C143_balance",
    "Distclus.C143_default",
    "Distclus.C143_kmeans",
    "Distclus.C143_settles",
    "Distclus.C143_restart"
   ],
   "note": "the claims that Dirac leaves the Gibbs target and that Init starts afresh are refuted by C143_balance with C143_default, and by C143_restart"
  },
  {
   "property": "C144",
   "status": "proved",
   "theorems": [
    "Distclus.C144_distance",
    "Distclus.C144_label",
    "Distclus.C144_kmeans",
    "Distclus.C144_choice",
    "Distclus.C144_ppIter",
    "Distclus.C144_pp",
    "Distclus.C144_stream",
    "Distclus.C144_stream_run",
    "Distclus.C144_mcmc",
    "Distclus.C144_mcmc_init",
    "Distclus.C144_cosine",
    "Distclus.C144_tiny"
   ],
   "note": "the claim that finite data are harmless is refuted: C144_cosine (panic of k-means++, one cluster for ever in streaming), C144_mcmc, C144_tiny"
  },
  {
   "property": "C145",
   "status": "proved",
   "theorems": [
    "Distclus.C145_pdf",
    "Distclus.C145_sample",
    "Distclus.C145_init",
    "Distclus.C145_same",
    "Distclus.C145_right",
    "Distclus.C145_larger",
    "Distclus.C145_smaller",
    "Distclus.C145_ends",
    "Distclus.C145_type",
    "Distclus.C145_params"
   ],
   "note": "the claim that an iteration at worst fails with an error is refuted: C145_smaller, C145_ends (the process ends)"
  },
  {
   "property": "C146",
   "status": "proved",
   "theorems": [
    "Distclus.C146_accepted",
    "Distclus.C146_two",
    "Distclus.C146_one",
    "Distclus.C146_null",
    "Distclus.C146_never_grows",
    "Distclus.C146_panics",
    "Distclus.C146_prob",
    "Distclus.C146_negative",
    "Distclus.C146_nan",
    "Distclus.C146_not_positive",
    "Distclus.C146_iterate"
   ],
   "note": "the claim is refuted for every ProbaK of another length than 3: C146_never_grows, C146_prob"
  },
  {
   "property": "C147",
   "status": "proved",
   "theorems": [
    "Distclus.C147_path",
    "Distclus.C147_dist",
    "Distclus.C147_best",
    "Distclus.C147_exact",
    "Distclus.C147_binary64",
    "Distclus.C147_order"
   ],
   "note": "the exact DTW distance is stated over warping paths (Spec.IsExactDtw), independently of the cost matrix"
  },
  {
   "property": "C148",
   "status": "proved",
   "theorems": [
    "Distclus.C148_returns",
    "Distclus.C148_dba",
    "Distclus.C148_lost",
    "Distclus.C148_nan",
    "Distclus.C148_euclid",
    "Distclus.C148_not_symmetric",
    "Distclus.C148_leaves_window",
    "Distclus.C148_skipped",
    "Distclus.C148_not_skipped"
   ],
   "note": "the three claims are refuted by C148_not_symmetric, C148_leaves_window and C148_skipped; what remains of them is C148_lost and C148_nan"
  },
  {
   "property": "C149",
   "status": "proved",
   "theorems": [
    "Distclus.C149_same",
    "Distclus.C149_leaves",
    "Distclus.C149_steady",
    "Distclus.C149_safe",
    "Distclus.C149_panics_iff",
    "Distclus.C149_larger",
    "Distclus.C149_opens",
    "Distclus.C149_sizes",
    "Distclus.C149_stuck",
    "Distclus.C149_short",
    "Distclus.C149_first",
    "Distclus.C149_series",
    "Distclus.C149_series_panics"
   ],
   "note": "the claim is refuted by C149_short and C149_first: an element which does not panic can make all those which follow panic"
  },
  {
   "property": "C150",
   "status": "proved",
   "theorems": [
    "Distclus.C150_result",
    "Distclus.C150_two",
    "Distclus.C150_dies",
    "Distclus.C150_given",
    "Distclus.C150_pp_first",
    "Distclus.C150_pp",
    "Distclus.C150_pp_iterate",
    "Distclus.C150_pp_same",
    "Distclus.C150_pp_safe",
    "Distclus.C150_first_returns",
    "Distclus.C150_rand"
   ],
   "note": "the claim is refuted by C150_dies; that the first iteration may return is C150_first_returns"
  },
  {
   "property": "C151",
   "status": "proved",
   "theorems": [
    "Distclus.C151_choice",
    "Distclus.C151_overflow",
    "Distclus.C151_zero",
    "Distclus.C151_ppIter",
    "Distclus.C151_ppIter_overflow",
    "Distclus.C151_pp",
    "Distclus.C151_pp_self",
    "Distclus.C151_euclid",
    "Distclus.C151_euclid_first",
    "Distclus.C151_probaK",
    "Distclus.C151_always_grows",
    "Distclus.C151_twice",
    "Distclus.C151_accepted"
   ],
   "note": "the claims are refuted by C151_twice and C151_accepted"
  },
  {
   "property": "C152",
   "status": "proved",
   "theorems": [
    "Distclus.C152_power",
    "Distclus.C152_loss",
    "Distclus.C152_frozen",
    "Distclus.C152_ppIter",
    "Distclus.C152_equal",
    "Distclus.C152_cosine"
   ],
   "note": "the claims are refuted by C152_equal and C152_cosine"
  },
  {
   "property": "C153",
   "status": "proved",
   "theorems": [
    "Distclus.C153_panics",
    "Distclus.C153_times",
    "Distclus.C153_live",
    "Distclus.C153_quiet",
    "Distclus.C153_one",
    "Distclus.C153_torn"
   ],
   "note": "the claim is refuted by C153_torn; the header of the slice is read in one step"
  },
  {
   "property": "C154",
   "status": "proved",
   "theorems": [
    "Distclus.C154_assert",
    "Distclus.C154_right",
    "Distclus.C154_predict",
    "Distclus.C154_kmeans",
    "Distclus.C154_given",
    "Distclus.C154_rand",
    "Distclus.C154_rand_same",
    "Distclus.C154_pp",
    "Distclus.C154_loss",
    "Distclus.C154_mcmc",
    "Distclus.C154_stream",
    "Distclus.C154_stream_first",
    "Distclus.C154_stream_init"
   ],
   "note": "the claim is refuted: Push accepts the element and the first iteration panics (C154_kmeans)"
  },
  {
   "property": "C155",
   "status": "proved",
   "theorems": [
    "Distclus.C155_stuck",
    "Distclus.C155_returns",
    "Distclus.C155_or",
    "Distclus.C155_and",
    "Distclus.C155_failed",
    "Distclus.C155_timed_out",
    "Distclus.C155_skeleton",
    "Distclus.C155_skeleton_hang",
    "Distclus.C155_skeleton_runs"
   ],
   "note": "the claims are refuted by C155_stuck, C155_failed, C155_timed_out and C155_skeleton_hang; a poll is one action"
  },
  {
   "property": "C156",
   "status": "proved",
   "theorems": [
    "Distclus.C156_blame",
    "Distclus.C156_interrupts",
    "Distclus.C156_ready",
    "Distclus.C156_late",
    "Distclus.C156_restart",
    "Distclus.C156_wait"
   ],
   "note": "the claims are refuted by C156_late, C156_restart and C156_wait; time is not modelled: a time-out may wake up at any moment"
  },
  {
   "property": "C157",
   "status": "proved",
   "theorems": [
    "Distclus.C157_returned",
    "Distclus.C157_faultless",
    "Distclus.C157_broken"
   ],
   "note": "the claim is refuted by C157_broken; errors returned by Push (those of the implementation) are not covered"
  }
 ]
}