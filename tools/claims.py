c("C01","proved",["C01_par_even_partition"])
c("C02","proved",["C02_parMapLabel_eq_mapLabel","C08_parts_schedule_independent"])
c("C03","proved",["C03_assign_nearest","C03_assign_nearest_linear","C03_assign_empty"])
c("C04","proved",["C04_nan_first_sticks","C04_nan_later_ignored","C04_negative_forgotten"])
c("C05","proved",["C05_mapLabel_assign"])
c("C06","proved",["C06_reduceDBA","C06_reduceDBA_empty"])
c("C07","proved",["C07_reduceDBA_mean"],"exact arithmetic over the reals")
c("C08","proved",["C08_parReduceDBA_cards","C08_parReduceDBA_means","C08_euclid","C08_parts_schedule_independent"],"cards for any space; means in exact arithmetic")
c("C09","proved",["C09_forLabels_mapLabel","C09_parForLabels","C09_parForLabels_cards"],"cards for any space; means in exact arithmetic")
c("C10","proved",["C10_reduceLoss","C10_parLoss","C10_parLossForLabels","C10_totalLoss","C10_forLabels_mapLabel"],"exact (commutative, associative) addition for the parallel versions")
c("C11","proved",["C11_mapLabel_minimises_loss"],"exact arithmetic over the reals")
c("C12","proved",["C12_dba","C12_dba_perm","C12_weightedDBA","C12_weightedDBA_perm"],"exact arithmetic over the reals")
c("C13","proved",["C13_infinite_keeps_all","C13_stored_prefix"])
c("C14","proved",["C14_frame_last_n","C14_frame_never_shrinks"])
c("C15","proved",["C15_staged_invisible","C15_no_loss","C15_apply"])
c("C16","proved",["C16_push_blocks_iff","C16_pipe_bounded","C16_batch_accepted_iff"])
c("C17","proved",["C17_recency_false","C17_recency_partial"],"the examined claim is refuted by a witness; the guarded version is proved")
c("C18","proved",["C18_no_alias_with_caller","C18_live_view","C18_infinite_view_constant","C18_frame_view_overwritten"])
c("C19","proved",["C19_nil","C19_and","C19_or","C19_iter","C19_status"])
c("C20","proved",["C20_wait_iff","C20_deadline_returns","C20_no_deadline","C20_algo_wait","C20_wait_hides_error"])
c("C21","proved",["C21_kmeans_accepts","C21_kmeans_defaults","C21_mcmc_accepts","C21_mcmc_defaults","C21_streaming_accepts","C21_streaming_defaults"])
c("C22","proved",["C22_negative_cpu_accepted","C22_par_panics_iff"])
c("C40","proved",["C40_metric","euclid_total"],"Exact arithmetic (reals): non-negative, symmetric, triangle inequality, zero iff equal; no panic on points of one dimension.")
c("C41","proved",["C41_combine","C41_fresh","C41_copy_fresh"],"Weighted mean in exact arithmetic; fresh slices in a heap model of Go slices.")
c("C42","proved",["C42_panics_iff","C42_surplus_ignored","C42_not_symmetric"],"Any float type: the panic condition needs no arithmetic law.")
c("C43","proved",["C43_cosine","C43_zero_nan","cosinus_total"],"Exact arithmetic for non-zero vectors; extended reals with NaN for the zero vector.")
c("C23","proved",["C23_iterate","C23_seq_members","C23_impl","C23_run","C23_par_bad_degree","C23_panics"],"no law on the space; the parallel strategy needs a degree of at least one, below which it panics")
c("C24","proved",["C24_iterate","C24_run","C24_euclid","C24_rounding_differs"],"exact arithmetic; a witness shows that a rounding mean breaks it")
c("C25","proved",["C25_loss_step","C25_loss_run"],"exact arithmetic over the reals")
c("C26","proved",["C26_given","C26_given_length"])
c("C27","proved",["C27_rand","C27_negative_panics"])
c("C28","proved",["C28_ppIter","C28_ppInitializer","C28_zero_draw_panics","euclid_pseudoMetric"],"ordered field arithmetic; a draw of exactly 0 panics")
c("C29","proved",["C29_weightedChoice","C29_null_iff","C29_zero_draw","C29_not_positive","C29_nan"],"ordered field arithmetic; the index -1 cases need no law")
c("C44","proved",["C44_C45_dtw"],"needs only a linear order and a monotone addition, so it also holds for a rounded addition; no NaN")
c("C45","proved",["C44_C45_dtw"])
c("C46","proved",["C46_storage","C46_matrix"])
c("C47","proved",["C47_dist_panics_iff","C47_combine_panics_iff","C47_newDTW_panics","C47_never_panics_false"],"exact panic condition; the unguarded claim is refuted by a witness")
c("C48","proved",["C48_symmetric_partial","C48_symmetric_false"],"the unguarded claim is refuted by a witness; the guarded version is proved")
c("C49","proved",["C49_identity","C49_window_mono"])
c("C50","proved",["C50_resize","C50_edge_cases"])
c("C51","proved",["C51_interpolate","C51_null_factor"])
c("C52","proved",["C52_dba","C52_combine"])
c("C35","proved",["C35_stream","C35_calls","C35_no_panic"],"Copy of the space is the identity on values")
c("C36","proved",["C36_push","C36_new","C21_streaming_accepts"])
c("C37","proved",["C37_cards"])
c("C38","proved",["C38_mass","C38_euclid"],"exact arithmetic over the reals")
c("C39","proved",["C39_monotone","C39_outlier","C39_zero_distance","zeroTest_xreal"],"order laws of floats including NaN")
c("C69","proved",["C69_reinit"],"the examined claim is refuted for every state with a cluster")
c("C70","proved",["C70_process","C70_decision"])
c("C71","proved",["C71_copy"],"the examined claim is refuted; exact behaviour proved")
c("C30","proved",["C30_range","C30_moves","C30_accepted","C30_no_panic","initContract_given","initContract_rand","initContract_pp","C30_four_weights_panic","C30_zero_weights"],"range and moves need only -1 < 0; absence of panic in exact arithmetic; panic with four weights by witness")
c("C31","proved",["C31_store_contents","C31_get_stored","C31_get_new","C31_get_add","C31_size_gap"])
c("C32","proved",["C32_iterate","C32_count","C32_at_most","C32_ratio_ge_one","C32_improvement_accepted","C32_restart_false"],"order laws of floats; the improvement claim in exact arithmetic with the Dirac distribution")
c("C33","proved",["C33_builds_once","C33_exclusive","C33_no_deadlock"],"sequentially consistent memory: the double-checked read of buildable is a data race under the Go memory model")
c("C34","proved",["C34_panics_iff","C34_symmetric","C34_translation","C34_decreasing","C34_maximum"],"exact arithmetic over the reals")
c("C72","proved",["C72_loss_partial","C72_loss_false"],"the examined claim is refuted by a witness; the guarded version is proved")
c("C73","proved",["C73_sample","C73_pdf_scale","C73_pdf_sample_mismatch"],"the examined claim is refuted in every dimension; exact arithmetic over the reals")
c("C53","proved",["C53_coherent","C53_history","C53_observed"],"every reachable state of the transition system of the controller")
c("C54","proved",["C54_refused","C54_interleaved","C54_init_end","C54_accepted"])
c("C55","proved",["C55_counters","C55_figures","C55_pushes","C55_iterations"],"since the last reset of the counters: init on Finished resets them, init on Created does not")
c("C64","proved",["C64_notified","C64_all"],"delivery to the notification loop; the loop then calls the notifier once per delivery (step nl1)")
c("C66","proved",["C66_decision","C66_start","C66_period","C66_overlap_loses_start"],"the unguarded claim is refuted for overlapping pushes by a witness")
c("C59","proved",["C59_failed_play"],"the examined claim is refuted for every state at that return and every continuation")
c("C60","proved",["C60_orphan","C60_pause_at_end"],"the examined claim is refuted by a witness; the blocking is proved for every continuation")
c("C61","proved",["C61_push_recover","C61_witness"],"the examined claim is refuted by a witness; the blocking is proved for every continuation")
c("C62","proved",["C62_two_runs"],"the examined claim is refuted by a witness")
c("C63","proved",["C63_notifier","C63_witness"],"the examined claim is refuted by a witness; the blocking is proved for every continuation")
c("C74","proved",["C74_two_pauses","C60_orphan"],"the examined claim is refuted by a witness; the blocking is proved for every continuation")
c("C75","proved",["C75_two_resumes"],"the examined claim is refuted by a witness, for any number of further iterations")
c("C76","proved",["C76_stop_overtaken"],"the examined claim is refuted by a witness")
c("C77","proved",["C77_push_reinit","C77_witness"],"the examined claim is refuted by a witness; the blocking is proved for every continuation")
c("C78","proved",["C78_push_writer","C78_witness"],"the examined claim is refuted by a witness; the blocking is proved for every continuation")
c("C79","proved",["C79_play_at_end"],"the examined claim is refuted by a witness")
c("C56","proved",["C56_limit","C56_one_run","C56_overlap"],"the unguarded claim is refuted by a witness")
c("C57","proved",["C57_after_init","C57_saved","C57_error","C57_panic","C57_error_lost"],"that the error remains is refuted by a witness")
c("C65","proved",["C65_close","C65_unlock","C65_holder"],"")
c("C67","proved",["C67_data","C67_same_future","C67_full_frame","C67_evicts_newest","C67_independent"],"Copy takes no lock; the copy is taken while nobody uses the original; that a full copy evicts the oldest element is refuted by a witness")
c("C68","proved",["C68_fired","C68_last","C68_interrupts","C68_stale","C68_stale_run"],"time.Sleep itself is not modelled: a time-out can wake up at any moment; the examined claim is refuted by witnesses")
c("C80","proved",["C80_two_runs","C80_lost_play"],"the examined claim is refuted by witnesses")
c("C81","proved",["C81_push_alone","C78_push_writer"],"the examined claim is refuted by a witness; the blocking is proved for every continuation")
c("C58","proved",["C58_results","C58_status","C58_returns"],
  "Every sequence of calls of one client and every schedule. The hypotheses (no failing Init/Iterate, no Stop on Idle, no limits, no automatic start, plain Wait) are needed: C59, C80, C81 refute the claim without them. Return is possibility from every reachable state (no reachable state is stuck), not a bound on the scheduler.")
c("C82","proved",["C82_results","C82_status","C82_limit","C82_bound","C82_batch","C82_returns","C82_forgets"],
  "One client, any number of runs (Rebatching: a run is started only when the goroutine of the former one is over; C91 shows what happens otherwise), no failing Init/Iterate, no time-out, no Finishing, no DataPerIter. Return is possibility from every reachable state.")
c("C83","proved",["C83_ratio","C83_balance"],"exact real arithmetic; the time is the number of stored data")
c("C84","proved",["C84_constant","C84_not_density"],"exact real arithmetic; the examined claim is refuted for every state and draw which moves a centroid")
c("C85","proved",["C85_serial","C85_serial_batch","C85_two_clients"],
  "Serial replays the record of the calls of the implementation; the claim for several clients is refuted (C85_two_clients). Hypotheses on the client as in C58 and C82; the implementation does not fail.")
c("C86","proved",["C86_composition","C86_centroids"],
  "Hypotheses on the client as in C82; Computes f says that the implementation is a function of the centroids and of the rank of the iteration.")
c("C87","proved",["C87_kmeans","C87_count","C87_loss"],
  "Buffered replays the pushes, Init and Iterate of kmeans.Impl on the record with a DataBuffer. Hypotheses on the client as in C82 but one Play only (Batching), and Play is not called on a Ready algorithm (see C88 for that case; C133 for any number of runs).")
c("C88","proved",["C88_first_iteration","C88_not_seen","C88_capacity"],
  "The expectation that the first iteration works on all the data pushed is refuted (C88_not_seen).")
c("C89","proved",["C89_strict","C89_stationary","C89_converges","C89_batch","C89_rounding"],
  "Exact real arithmetic; the loss is TotalLoss with norm 2. Hypotheses of C89_batch on the client as in C87.")
c("C90","proved",["C90_writes","C90_push_crashes","C90_end_crashes","C90_where","C90_safe","C90_frozen","C90_coherent","C90_values","C90_counts"],
  "The examined claim is refuted by C90_push_crashes and C90_end_crashes; the others hold for every execution. A map write is two steps (begin, end) and a read during a write is the fatal error, as the runtime checks it.")
c("C91","proved",["C91_second_batch"],
  "The examined claim is refuted by the execution of the theorem; C82 is the positive statement.")
c("C92","proved",["C92_races","C92_workflow","C92_batch","C92_not_one","C92_not_two","C92_reads","C92_writes"],
  "The accesses are a table by program counter; C92_reads and C92_writes prove that it covers what the transition system reads and writes. The examined claim is refuted by C92_not_one.")
c("C93","proved",["C93_source","C93_given","C93_kept","C93_kmeans","C93_nil","C93_not_nil"],
  "Any number of clients. Works says what the implementation returned; for k-means it is discharged by C23 and the initializers by C26.")
c("C94","proved",["C94_since_start","C94_window","C94_period","C94_per_second","C94_not_max","C94_unlimited","C94_steady","C94_late"],
  "The claim of the comment in core/conf.go (maximal number of iterations per second) is refuted by C94_not_max; the bounds which hold are proved. The rounding of the division in the period is not modelled.")
c("C95","proved",["C95_run","C95_during","C95_sum","C95_reset","C95_monotone","C95_period","C95_not_iterating"],
  "Runs one after the other. The claim that the duration is the time spent iterating is refuted by C95_not_iterating.")
c("C96","proved",["C96_play","C96_init","C96_released","C96_again","C96_next_play"],
  "The claim that the panic is contained is refuted for every execution and continuation; the panics themselves are C97_panic, C28_zero_draw_panics.")
c("C97","proved",["C97_given","C97_check","C97_null_set","C97_success","C97_panic","C97_predict_panics","C97_predict","C97_predict_nil","C97_shown","C97_after_failure","givenFull_short","randFull_short","ppFull_short"],
  "The claim is refuted by C97_check and C97_after_failure; strings.ToLower is a parameter.")
c("C98","proved",["C98_dist","C98_binary64","C98_dtw","C98_zero_distinct"],
  "For any rounding of the class Rounding, of which binary64 is proved to be an instance; overflow and fused multiply-add are not described. The examined claim is refuted by C98_zero_distinct.")
c("C99","proved",["C99_nearest","C99_margin","C99_binary64"],
  "Same arithmetic as C98.")
c("C100","proved",["C100_combine","C100_iterate","C100_strategies","C100_counts","C100_binary64","C100_strategies_differ"],
  "Same arithmetic as C98. The examined claim is refuted by C100_strategies_differ; in exact arithmetic it holds (C08, C24).")
c("C101","proved",["C101_loss_step","C101_increases"],
  "Same arithmetic as C98. The examined claim is refuted by C101_increases; in exact arithmetic it holds (C25).")
c("C102","proved",["C102_weightedChoice","C102_weightedChoice_ok","C102_ppIter","C102_ppInitializer","C102_not_squared"],
  "Exact arithmetic; probabilities are Lebesgue measures, of the cube for several draws. The examined claim is refuted by C102_not_squared. The first position of PPInitializer is given.")
c("C103","proved",["C103_positions","C103_uniform","C103_termination","C103_limit"],
  "Counts of sequences of draws; the copies of the elements are pairwise different for the counts of lists.")
c("C104","proved",["C104_accept","C104_nextK","C104_balance"],
  "Exact arithmetic; the density of a proposal is the one kept with it, as in C83.")
c("C105","proved",["C105_createInitializer","C105_unknown","C105_given","C105_pp_rand","C105_status"],
  "unicode.ToLower is any function with the usual values on the seven-bit characters.")
c("C106","proved",["C106_nearest","C106_iterate","C106_kmeans","C106_loss","C106_given","C106_rand","C106_pp","C106_streaming","C106_streaming_needs_init"],
  "Exact arithmetic.")
c("C107","proved",["C107_iterate","C107_repeat","C107_run","C107_loss","C107_rounding_differs"],
  "Exact arithmetic, for any space whose Combine is the weighted mean in C107_iterate and C107_repeat; the claim for float64 is refuted by C107_rounding_differs.")
c("C108","proved",["C108_values","C108_view","C108_iterate","C108_live","C108_init","C108_foreign","C108_client_write","C108_stable_false"],
  "The stability of the clustering is refuted by C108_stable_false; the other theorems say what holds instead.")
c("C109","proved",["C109_mixed","C109_quiet","C109_distance_false"],
  "Reads of single elements are atomic and see a state between two calls (an Iterate writes at most one element that exists); the claim on the distance is refuted by C109_distance_false.")
c("C110","proved",["C110_no_panic","C110_iterate","C110_init","C110_centroids","C110_means"],
  "The hypothesis Streamed says that the results of the implementation in the record are those of streaming.Impl used by one goroutine at a time (which the controller guarantees for one client, C85).")
c("C111","proved",["C111_batch","C111_hang","C111_perData"],
  "The claim that Batch returns is refuted by C111_hang and C111_perData.")
c("C112","proved",["C112_history","C112_centroids","C112_moves","C112_acceptations","C112_batch","C112_second_batch"],
  "The hypothesis Sampled says that the results of the implementation in the record are those of mcmc.Impl, whatever the draws. The claim on the acceptations is refuted by C112_second_batch.")
c("C113","proved",["C113_init","C113_play","C113_play_err","C113_pause","C113_stop","C113_wait","C113_wait_err","C113_pause_false","C113_stop_false"],
  "Any number of clients. C113_pause_false and C113_stop_false are executions which refute the stronger claims (the second with one client).")
c("C114","proved",["C114_euclid","C114_mcmc","C114_ratio","C114_dtw","C114_dtw_partial","C114_dtw_false"],
  "For series the examined claim is refuted by a witness; the guarded version is proved.")
c("C115","proved",["C115_pdf","C115_default","C115_total","C115_law","C115_not_density"],
  "Exact arithmetic over the reals, math.Gamma and math.Pi being Real.Gamma and Real.pi. The laws of gonum's normal and chi-squared generators are assumed.")
c("C116","proved",["C116_element","C116_sequence","C116_mono","C116_median","C116_first","C116_positive","C116_equal"],
  "Exact arithmetic over the reals; the law of gonum's normal generator is assumed. The examined claim is refuted by C116_equal.")
c("C117","proved",["C117_returns","C117_no_deadlock","C117_spin"],
  "Progress is a hypothesis on the scheduler and on the implementation (its calls return); the examined claim is refuted by C117_spin.")
c("C118","proved",["C118_positions","C118_unbounded","C118_room","C118_elements","C118_torn"],
  "The header returned by Data() and each element are read in one step; copy reads in increasing order. The examined claim is refuted by C118_torn.")
c("C119","proved",["C119_returns","C119_starved"],
  "Fair is strong fairness for each goroutine; it supposes that a mutex is given in the end to a goroutine which waits for it (sync.Mutex has a starvation mode, sync.RWMutex blocks new readers behind a writer). The examined claim is refuted by C119_starved.")
c("C120","proved",["C120_constant","C120_kept","C120_limit","C120_lowered","C120_raised","C120_neverFinish","C120_wait_hangs"],
  "the limit is proved for executions in which at most one goroutine at a time is between the test of the limit and the record of an iteration (as C56 with m = 1); the fields read in one action are written together; the values written are not checked by the code and taken as naturals here; memory is sequentially consistent")
c("C121","proved",["C121_one","C121_batch","C121_stuck"],
  "exact real arithmetic; Euclidean space; norm 2; C121_batch under the hypotheses of C89_batch (one client, buffer without window); C121_stuck refutes the claim for two or more centroids (two are used)")
c("C122","proved",["C122_guarantee","C122_measurable","C122_error","C122_norm2","C122_others","C122_iteration"],
  "exact real arithmetic; src.Intn uniform on the positions, src.Float64 uniform on [0,1), independent; no centroids returned counts for no loss (C122_error says when this happens); the claims examined are refuted by C122_norm2, C122_others, C122_iteration")
c("C123","proved",["C123_step","C123_run","C123_norms","C123_norm2"],
  "exact real arithmetic; data of equal norm; the claims without this hypothesis, or with norm 2, are refuted by C123_norms and C123_norm2")
c("C124","proved",["C124_same","C124_seq","C124_par_crash","C124_par_ok","C124_larger","C124_no_centroid","C124_loss","C124_euclid","C124_cosinus","C124_par_worse","C124_par_panic"],
  "no law of arithmetic but -1 < 0; C124_euclid and C124_cosinus show that the two spaces meet the hypothesis Sized of the others; what the other goroutines do in the instant before the process ends is not described; the claims examined are refuted by C124_par_worse and C124_par_panic")
c("C125","proved",["C125","C125_locks","C125_caller","C125_run"],
  "the callers of Push and Wait recover the panic; a panic of impl.Init is C96, one of Iterate is an action of the model, one of the notifier ends the process; all the theorems on the states of reachable algorithms carry over by C125")
c("C126","proved",["C126_spaces","C126_kmeans","C126_collapsed","C126_kmeans_run","C126_stream","C126_stream_run","C126_mcmc_reject","C126_mcmc_init","C126_mcmc_frozen"],
  "laws: those of the order, -1 < 0 and NanLaws (NaN is absorbing), proved of the extended reals with NaN; the power of a NaN with the exponent of the configuration is NaN (Go: unless the exponent is 0); the DTW space is not covered; repeated Init of streaming is not in C126_stream_run")
c("C127","proved",["C127_prefix","C127_calls","C127_result","C127_reproducible","C127_buffer","C127_mcmc","C127_hasty"],
  "the machine answers Iterate in one step, which is what the implementations do when nothing is pushed during a run; a generator shared with another algorithm is outside (the state of the machine is its own)")
c("C128","proved",["C128_mcmc","C128_kmeans_copy","C128_copy_draws","C128_copy_shares","C128_copy_disturbs"],
  "the calls of the two algorithms are interleaved and do not overlap; the state of a generator and its draws are arbitrary")
c("C129","proved",["C129_safe","C129_panics","C129_never_settles","C129_loss_grows","C129_loss_grows_two","C129_order","C129_par_differs"],
  "C129_safe is for any arithmetic with a monotone addition; the witnesses are in exact rational arithmetic with inner distance |x - y|")
c("C130","proved",["C130_first","C130_next","C130_run","C130_single","C130_stream_early","C130_stream_late","C130_stream_first","C130_stream_merges","C130_stream_run","C130_spaces","C130_cosine","C130_signs"],
  "the theorems on runs are for any space in which the bad elements are infinitely far from the good ones; C130_spaces and C130_cosine prove that the Euclidean points over the reals with IEEE specials are such, and that in the cosine space they are as bad as NaN. Overflow of finite values is not modelled")
c("C131","proved",["C131_distances","C131_combine","C131_kmeans","C131_kmeans_any","C131_cosine","C131_streaming","C131_float64","C131_nan","C131_mean_overflow","C131_dist_overflow","C131_label_overflow"],
  "for every format with room (Room): the bound times the number of data, and four times its square times the dimension, do not overflow; C131_float64 is the instance. No fused multiply-add, one zero")
c("C132","proved",["C132_centres","C132_mass","C132_float64","C132_frozen"],
  "as C131 for the arithmetic; the error is not claimed to be the best")
c("C133","proved",["C133_views","C133_batches","C133_again","C133_count","C133_stationary","C133_mean","C133_not_seen"],
  "generalises C87 to C89 and C121_batch from one Play to any number of runs (Rebatching). plan, views, atInit and seen are functions of the calls of the client, resp. of the implementation (Spec/CtrlPlan, Spec/CtrlAgain); the expectation that a second run sees the elements which caused it is refuted (C133_not_seen)")
c("C134","proved",["C134_upper","C134_lower","C134_ends","C134_zero","C134_weak_triangle","C134_triangle_false","C134_no_constant"],
  "costs in any ordered commutative monoid with a greatest element (exact arithmetic). The triangle inequality is refuted by a witness (C134_triangle_false) and, for every factor, by a family (C134_no_constant); a version with factors is proved")
c("C135","proved",["C135_nan_b","C135_negative_b","C135_dimension","C135_threshold","C135_amp_default","C135_amp_blind","C135_amp_accepts","C135_pdf_blind"],
  "the claim that an accepted configuration works is refuted, for all data and histories. math.Gamma is any function which is +Inf at the numbers from 172 on (the correctly rounded one is, roundGamma_overflows); C135_threshold is about the correctly rounded one; log, exp, sqrt correctly rounded")
c("C136","proved",["C136_unbounded","C136_probability","C136_negative_ratio","C136_repeat"],
  "the claim that the spread of the data bounds the number of centres is refuted; exact arithmetic over the reals; C136_probability takes norm.Rand as normal with mean Mu and standard deviation Sigma, the draws being independent (as C116)")
c("C137","proved",["C137_distance","C137_self","C137_loss","C137_reject","C137_frozen","C137_init","C137_own","C137_recovers","C137_seeks_infinity","C137_negative_amp","C137_prefers_loss"],
  "the claim that mcmc rejects outliers is refuted for data which are not finite (they stop mcmc instead) and confirmed in that no such proposal is accepted; numbers are Ieee f (level e), C137_prefers_loss is over the reals; that Amp is not negative and that the draws are not negative are hypotheses of the rejection")
c("C138","proved",["C138_reduceDBA","C138_reduceLoss","C138_dbaForLabels","C138_parDbaForLabels","C138_hidden_labels","C138_exact_capacity","C138_lossForLabels"],
  "the claim that the parallel functions for labels panic as the sequential ones do is refuted by slices with spare capacity (C138_hidden_labels) and holds without spare capacity (C138_exact_capacity); panics of the space itself are C42, C47 and C124; a panic of a worker ends the process")
c("C139","proved",["C139_total","C139_parTotal","C139_rounding","C139_seq_par","C139_euclid","C139_binary64","C139_differ"],
  "the claim that the two losses are equal is refuted in float64 (C139_differ); overflow is excluded (C131 says when there is none); the square is taken correctly rounded: math.Pow(x, 2) multiplies the mantissa once")
c("C140","proved",["C140_error","C140_binary64","C140_nearest","C140_passed_over","C140_own_label","C140_kmeans","C140_symmetry","C140_streaming"],
  "the claims that an element equal to a centroid gets its label, that k-means keeps a clustering of loss zero, that equal data give one streaming centre and that the distance is symmetric are refuted in float64; overflow and underflow excluded; the witnesses use exact sums of products, so that a fused multiply-add changes nothing")
c("C141","proved",["C141_choice","C141_null","C141_ppIter","C141_binary64","C141_integers","C141_panics","C141_default","C141_pp_panics"],
  "the claim that a draw below 1 never panics is refuted in float64 by C141_panics (mcmc) and C141_pp_panics (k-means++); overflow excluded; draws are any numbers represented, those of rand.Float64 are multiples of 2^-53")
c("C142","proved",["C142_see_kmeans","C142_iterate","C142_run","C142_given","C142_rand","C142_pp","C142_kmeans","C142_stream","C142_stream_write","C142_see_stream","C142_reused","C142_pp_shared"],
  "the claim that a vector may be reused after Push is refuted by C142_reused (streaming) and C142_pp_shared (k-means++ before an iteration); the existing polymorphic model runs on references; clients who write in the centroids they read, and writes concurrent with a call, are not in this model")
c("C143","proved",["C143_stored","C143_settled","C143_frozen","C143_ratio","C143_balance","C143_default","C143_kmeans","C143_settles","C143_restart"],
  "the claims that Dirac leaves the Gibbs target and that Init starts afresh are refuted by C143_balance with C143_default, and by C143_restart")
c("C144","proved",["C144_distance","C144_label","C144_kmeans","C144_choice","C144_ppIter","C144_pp","C144_stream","C144_stream_run","C144_mcmc","C144_mcmc_init","C144_cosine","C144_tiny"],
  "the claim that finite data are harmless is refuted: C144_cosine (panic of k-means++, one cluster for ever in streaming), C144_mcmc, C144_tiny")
c("C145","proved",["C145_pdf","C145_sample","C145_init","C145_same","C145_right","C145_larger","C145_smaller","C145_ends","C145_type","C145_params"],
  "the claim that an iteration at worst fails with an error is refuted: C145_smaller, C145_ends (the process ends)")
c("C146","proved",["C146_accepted","C146_two","C146_one","C146_null","C146_never_grows","C146_panics","C146_prob","C146_negative","C146_nan","C146_not_positive","C146_iterate"],
  "the claim is refuted for every ProbaK of another length than 3: C146_never_grows, C146_prob")
c("C147","proved",["C147_path","C147_dist","C147_best","C147_exact","C147_binary64","C147_order"],
  "the exact DTW distance is stated over warping paths (Spec.IsExactDtw), independently of the cost matrix")
c("C148","proved",["C148_returns","C148_dba","C148_lost","C148_nan","C148_euclid","C148_not_symmetric","C148_leaves_window","C148_skipped","C148_not_skipped"],
  "the three claims are refuted by C148_not_symmetric, C148_leaves_window and C148_skipped; what remains of them is C148_lost and C148_nan")
c("C149","proved",["C149_same","C149_leaves","C149_steady","C149_safe","C149_panics_iff","C149_larger","C149_opens","C149_sizes","C149_stuck","C149_short","C149_first","C149_series","C149_series_panics"],
  "the claim is refuted by C149_short and C149_first: an element which does not panic can make all those which follow panic")
c("C150","proved",["C150_result","C150_two","C150_dies","C150_given","C150_pp_first","C150_pp","C150_pp_iterate","C150_pp_same","C150_pp_safe","C150_first_returns","C150_rand"],
  "the claim is refuted by C150_dies; that the first iteration may return is C150_first_returns")
c("C151","proved",["C151_choice","C151_overflow","C151_zero","C151_ppIter","C151_ppIter_overflow","C151_pp","C151_pp_self","C151_euclid","C151_euclid_first","C151_probaK","C151_always_grows","C151_twice","C151_accepted"],
  "the claims are refuted by C151_twice and C151_accepted")
c("C152","proved",["C152_power","C152_loss","C152_frozen","C152_ppIter","C152_equal","C152_cosine"],
  "the claims are refuted by C152_equal and C152_cosine")
c("C153","proved",["C153_panics","C153_times","C153_live","C153_quiet","C153_one","C153_torn"],
  "the claim is refuted by C153_torn; the header of the slice is read in one step")
c("C154","proved",["C154_assert","C154_right","C154_predict","C154_kmeans","C154_given","C154_rand","C154_rand_same","C154_pp","C154_loss","C154_mcmc","C154_stream","C154_stream_first","C154_stream_init"],
  "the claim is refuted: Push accepts the element and the first iteration panics (C154_kmeans)")
c("C155","proved",["C155_stuck","C155_returns","C155_or","C155_and","C155_failed","C155_timed_out","C155_skeleton","C155_skeleton_hang","C155_skeleton_runs"],
  "the claims are refuted by C155_stuck, C155_failed, C155_timed_out and C155_skeleton_hang; a poll is one action")
c("C156","proved",["C156_blame","C156_interrupts","C156_ready","C156_late","C156_restart","C156_wait"],
  "the claims are refuted by C156_late, C156_restart and C156_wait; time is not modelled: a time-out may wake up at any moment")
c("C157","proved",["C157_returned","C157_faultless","C157_broken"],
  "the claim is refuted by C157_broken; errors returned by Push (those of the implementation) are not covered")
