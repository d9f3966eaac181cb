{
 "claims": [
  {
   "property": "C01",
   "status": "proved",
   "theorems": [
    "Verif.Atom.C01_stored_fields_survive",
    "Verif.Atom.C01_fitting_value_unchanged",
    "Verif.Atom.C01_string_blocks",
    "Verif.Atom.C01_time_words"
   ],
   "note": "every constructor/accessor pair of atom.inline.cpp, all argument values"
  },
  {
   "property": "C02",
   "status": "proved",
   "theorems": [
    "Verif.Atom.C02_no_collision",
    "Verif.Atom.C02_injective",
    "Verif.Atom.C02_number_iff",
    "Verif.Atom.C02_number_words",
    "Verif.Atom.C02_structure_iff",
    "Verif.Atom.C02_node_words"
   ],
   "note": ""
  },
  {
   "property": "C03",
   "status": "proved",
   "theorems": [
    "Verif.Atom.C03_precision",
    "Verif.Atom.C03_relative_error",
    "Verif.Atom.C03_idempotent",
    "Verif.Atom.C03_infinities",
    "Verif.Atom.C03_zero",
    "Verif.Atom.C03_nan",
    "Verif.Atom.C03_monotone"
   ],
   "note": "float bits as BitVec 32, value of a finite float as an exact rational"
  },
  {
   "property": "C04",
   "status": "partial",
   "theorems": [
    "Verif.Atom.C04_undefined_reads_as_nil_violated",
    "Verif.Atom.C04_undefined_reads_as_nil_partial"
   ],
   "note": "violated by the code for some constants (witness proved); partial covers the rest"
  },
  {
   "property": "C05",
   "status": "partial",
   "theorems": [
    "Verif.Atom.C05_node_id_violated",
    "Verif.Atom.C05_node_id_partial"
   ],
   "note": "violated by the code (witness proved)"
  },
  {
   "property": "C06",
   "status": "partial",
   "theorems": [
    "Verif.Words.C06_timestamp_struct",
    "Verif.Words.C06_timestamp_indirect",
    "Verif.Words.C06_duration_indirect",
    "Verif.Words.C06_duration_struct_violated",
    "Verif.Words.C06_duration_struct_partial"
   ],
   "note": "all forms proved except SetDurationStruct, which truncates the code that follows (witness proved)"
  },
  {
   "property": "C07",
   "status": "partial",
   "theorems": [
    "Verif.Words.C07_string_round_trip_violated",
    "Verif.Words.C07_string_round_trip_partial"
   ],
   "note": "violated for strings with embedded NUL / over 255 characters"
  },
  {
   "property": "C08",
   "status": "proved",
   "theorems": [
    "Verif.CellList.C08_list_refines_sequence",
    "Verif.CellList.C08_histories"
   ],
   "note": "refinement of list.h, cell by cell, to sequences with stable positions"
  },
  {
   "property": "C09",
   "status": "partial",
   "theorems": [
    "Verif.CellList.C09_push_back_location",
    "Verif.CellList.C09_push_front_location_violated",
    "Verif.CellList.C09_push_front_location_partial"
   ],
   "note": "push_front reports a wrong position when no cell is free (witness proved)"
  },
  {
   "property": "C10",
   "status": "partial",
   "theorems": [
    "Verif.CellList.C10_time_buffer_violated",
    "Verif.CellList.C10_time_buffer_partial"
   ],
   "note": "begin() does not check the first element (witness proved)"
  },
  {
   "property": "C11",
   "status": "proved",
   "theorems": [
    "Verif.Image.C11_view_record",
    "Verif.Image.C11_object_record",
    "Verif.Image.C11_concatenation"
   ],
   "note": "records below 2^32 words"
  },
  {
   "property": "C12",
   "status": "partial",
   "theorems": [
    "Verif.Image.C12_image_round_trip_violated",
    "Verif.Image.C12_image_round_trip_partial"
   ],
   "note": "violated when an object starts beyond word 65535 of the code segment (uint16 offset in CodeSegment::read, witness proved); proved otherwise"
  },
  {
   "property": "C59",
   "status": "partial",
   "theorems": [
    "Verif.Image.C59_class_record_violated",
    "Verif.Image.C59_class_record_partial"
   ],
   "note": "Class::read appends the stored name to the default \"undefined\" (proved for every buffer)"
  },
  {
   "property": "C60",
   "status": "partial",
   "theorems": [
    "Verif.Image.C60_object_map_violated",
    "Verif.Image.C60_object_map_partial"
   ],
   "note": "serialize shifts the object map in place, so a second serialisation is wrong (witness proved)"
  },
  {
   "property": "C13",
   "status": "proved",
   "theorems": [
    "Verif.Timings.C13_narrowing_exact",
    "Verif.Timings.C13_instant",
    "Verif.Timings.C13_not_a_time"
   ],
   "note": ""
  },
  {
   "property": "C14",
   "status": "partial",
   "theorems": [
    "Verif.Timings.C14_order_independent_violated",
    "Verif.Timings.C14_collection",
    "Verif.Timings.C14_order_independent_partial"
   ],
   "note": "instantaneous intervals are order dependent (witness proved); proved for collections without them"
  },
  {
   "property": "C15",
   "status": "partial",
   "theorems": [
    "Verif.BindMap.C15_unbound_count_violated",
    "Verif.BindMap.C15_unbound_count_partial"
   ],
   "note": "variable numbers are truncated to 8 bits (witness proved); proved below 256"
  },
  {
   "property": "C19",
   "status": "proved",
   "theorems": [
    "Verif.Match.C19_exact",
    "Verif.Match.C19_verdict_unique",
    "Verif.Match.C19_symmetric",
    "Verif.Match.C19_reflexive",
    "Verif.Match.C19_strict_is_stronger",
    "Verif.Match.C19_strict_lines_up",
    "Verif.Match.C19_wildcards_ignored",
    "Verif.Match.C19_kinds"
   ],
   "note": ""
  },
  {
   "property": "C61",
   "status": "partial",
   "theorems": [
    "Verif.Match.C61_constants_violated",
    "Verif.Match.C61_constants_partial"
   ],
   "note": "raw data words are compared as numbers: \"a\" matches \"b\" (witness proved)"
  },
  {
   "property": "C16",
   "status": "proved",
   "theorems": [
    "Verif.Evidence.C16_evidence_exact"
   ],
   "note": "for contents that are not composite-state instances (see C18) and values that are not unbound variables"
  },
  {
   "property": "C17",
   "status": "partial",
   "theorems": [
    "Verif.Evidence.C17_timeless_violated",
    "Verif.Evidence.C17_timeless_partial"
   ],
   "note": "violated for targets that are anti-facts (two witnesses proved)"
  },
  {
   "property": "C18",
   "status": "partial",
   "theorems": [
    "Verif.Evidence.C18_composite_counter_evidence_violated",
    "Verif.Evidence.C18_composite_counter_evidence_partial"
   ],
   "note": "never counter-evidence, proved for all instances whose components are facts"
  },
  {
   "property": "C20",
   "status": "proved",
   "theorems": [
    "Verif.Evidence.C20_absentee",
    "Verif.Evidence.C20_flip"
   ],
   "note": ""
  },
  {
   "property": "C21",
   "status": "proved",
   "theorems": [
    "Verif.ViewCtl.C21_bounds",
    "Verif.ViewCtl.C21_group_thresholds",
    "Verif.ViewCtl.C21_mean",
    "Verif.ViewCtl.C21_single_set"
   ],
   "note": "bounds in exact and in single-precision arithmetic; the mean in exact arithmetic"
  },
  {
   "property": "C22",
   "status": "partial",
   "theorems": [
    "Verif.ViewCtl.C22_resilience_violated",
    "Verif.ViewCtl.C22_resilience_partial",
    "Verif.ViewCtl.C22_invalidated"
   ],
   "note": "a view of resilience 16777220 never dies in single precision (proved); exact up to 2^23"
  },
  {
   "property": "C23",
   "status": "partial",
   "theorems": [
    "Verif.ViewCtl.C23_notifications_violated",
    "Verif.ViewCtl.C23_notifications_partial"
   ],
   "note": "the high counter is not reset by low values (witness proved)"
  },
  {
   "property": "C24",
   "status": "partial",
   "theorems": [
    "Verif.ViewCtl.C24_statistics_violated",
    "Verif.ViewCtl.C24_statistics_partial"
   ],
   "note": "the lowest value is missed when it is the first or a new highest value (witness proved)"
  },
  {
   "property": "C25",
   "status": "proved",
   "theorems": [
    "Verif.Upr.C25_grid",
    "Verif.Upr.C25_chain",
    "Verif.Upr.C25_no_period",
    "Verif.Upr.C25_before_reference"
   ],
   "note": "instants not before the time reference; the last theorem shows why"
  },
  {
   "property": "C26",
   "status": "partial",
   "theorems": [
    "Verif.Propagation.C26_propagation_violated",
    "Verif.Propagation.C26_propagation_partial"
   ],
   "note": "propagation stops after one hop (witness proved)"
  },
  {
   "property": "C62",
   "status": "partial",
   "theorems": [
    "Verif.ViewCtl.C62_copied_view_violated",
    "Verif.ViewCtl.C62_copied_view_partial"
   ],
   "note": "two witnesses proved"
  },
  {
   "property": "C63",
   "status": "partial",
   "theorems": [
    "Verif.ViewCtl.C63_propagated_change_violated",
    "Verif.ViewCtl.C63_propagated_change_partial"
   ],
   "note": "witness proved"
  },
  {
   "property": "C27",
   "status": "proved",
   "theorems": [
    "Verif.Sched.C27_order",
    "Verif.Sched.C27_on_time"
   ],
   "note": "all runs from any initial job set; 0 < sampling period"
  },
  {
   "property": "C28",
   "status": "proved",
   "theorems": [
    "Verif.Sched.C28_clock",
    "Verif.Sched.C28_advances"
   ],
   "note": "0 < sampling period"
  },
  {
   "property": "C29",
   "status": "proved",
   "theorems": [
    "Verif.Sched.C29_time_jobs",
    "Verif.Sched.C29_reduction_jobs"
   ],
   "note": ""
  },
  {
   "property": "C30",
   "status": "partial",
   "theorems": [
    "Verif.Store.C30_identifiers_violated",
    "Verif.Store.C30_injection_binds_once",
    "Verif.Store.C30_identifiers_partial"
   ],
   "note": "violated by notifications injected into several groups, by MemVolatile, and after loading an image holding an object without identifier (witnesses proved); proved for histories avoiding these"
  },
  {
   "property": "C31",
   "status": "partial",
   "theorems": [
    "Verif.Store.C31_injection_violated",
    "Verif.Store.C31_never_early",
    "Verif.Store.C31_submitted",
    "Verif.Store.C31_submitted_async",
    "Verif.Store.C31_handed_over",
    "Verif.Store.C31_delayed_once",
    "Verif.Store.C31_injection_partial"
   ],
   "note": "EInjectionJob does not check invalidation (witness proved); everything else proved for all histories"
  },
  {
   "property": "C64",
   "status": "partial",
   "theorems": [
    "Verif.Store.C64_store_violated",
    "Verif.Store.C64_store_partial"
   ],
   "note": "violated by notifications injected into several groups (witness proved)"
  },
  {
   "property": "C32",
   "status": "partial",
   "theorems": [
    "Verif.Perf.C32_window_average_violated",
    "Verif.Perf.C32_window_average_partial"
   ],
   "note": "the sum is not cleared between windows (witness proved)"
  },
  {
   "property": "C33",
   "status": "proved",
   "theorems": [
    "Verif.Invalidation.C33_exact",
    "Verif.Invalidation.C33_permanent",
    "Verif.Invalidation.C33_idempotent",
    "Verif.Invalidation.C33_second_time"
   ],
   "note": "For every acyclic reference graph and every history of invalidations and queries. Invalidating a goal counts as invalidating its simulation, as Goal::invalidate does. Side effects on views, markers and the store are left out."
  },
  {
   "property": "C34",
   "status": "partial",
   "theorems": [
    "Verif.Sims.C34_simulations_violated",
    "Verif.Sims.C34_simulations_partial"
   ],
   "note": "get_simulation(i) reads the code at the set header plus i, not plus one plus i: the last simulation comes out first. With one simulation it is right; the queries over all simulations are right up to 255."
  },
  {
   "property": "C35",
   "status": "partial",
   "theorems": [
    "Verif.Sims.C35_goal_targets_violated",
    "Verif.Sims.C35_refused_iff",
    "Verif.Sims.C35_goal_targets_partial"
   ],
   "note": "There is no lock around the search and the insertion; with two cores the same target is accepted twice. Proved for calls that do not overlap."
  },
  {
   "property": "C36",
   "status": "proved",
   "theorems": [
    "Verif.ModelBase.C36_apart",
    "Verif.ModelBase.C36_known",
    "Verif.ModelBase.C36_registered",
    "Verif.ModelBase.C36_refused",
    "Verif.ModelBase.C36_refused_only_failed",
    "Verif.ModelBase.C36_accepted_again"
   ],
   "note": "Entries are compared through a signature standing for what MEntry::match looks at. A failure reported for a model that is already black-listed does not renew its time, so C36_refused asks that it is not."
  },
  {
   "property": "C37",
   "status": "partial",
   "theorems": [
    "Verif.ModelBase.C37_pair_violated",
    "Verif.ModelBase.C37_pair_partial",
    "Verif.ModelBase.C37_refused"
   ],
   "note": "If the second model is known and the first is not, the first is returned as usable without being registered. Proved when a new first model makes the second one new."
  },
  {
   "property": "C38",
   "status": "partial",
   "theorems": [
    "Verif.Pack.C38_packing_violated",
    "Verif.Pack.C38_packing_partial",
    "Verif.Pack.C38_patterns_survive",
    "Verif.Pack.C38_references",
    "Verif.Pack.C38_packs",
    "Verif.Pack.C38_packing_nonvacuous"
   ],
   "note": "Violated: a guard holding a data word that looks like an I_PTR (a duration of 0x84001000 us) is changed by the round trip. Proved for all models of the supported layout without such words: packing succeeds, unpacking gives the same code, the same patterns and the same groups; patterns and groups survive whatever the guards hold; references are in range and lead to the object referred to."
  },
  {
   "property": "C39",
   "status": "partial",
   "theorems": [
    "Verif.Overlay.C39_rollback_violated",
    "Verif.Overlay.C39_rollback_partial",
    "Verif.Overlay.C39_rollback_first",
    "Verif.Overlay.C39_unpatch",
    "Verif.Overlay.C39_offspring_violated",
    "Verif.Overlay.C39_offspring_partial",
    "Verif.Overlay.C39_rollback_nonvacuous"
   ],
   "note": "Violated: a position patched again after a commit gets the original word back, not the committed one; an offspring overlay loses the committed values. Proved when the positions patched since the commit held the original words at the commit, for any operations in between."
  },
  {
   "property": "C40",
   "status": "partial",
   "theorems": [
    "Verif.Red.C40_reduction_violated",
    "Verif.Red.C40_reduction_partial",
    "Verif.Red.C40_characterised",
    "Verif.Red.C40_sound",
    "Verif.Red.C40_answer",
    "Verif.Red.C40_reduction_nonvacuous"
   ],
   "note": "The loop stops at the first input that does not meet the pattern. Proved: exactly which inputs are processed; nothing else is produced; the full statement when the inputs that meet the positive pattern come first and the others meet the negative one."
  },
  {
   "property": "C53",
   "status": "partial",
   "theorems": [
    "Verif.Ops.C53_infinities_violated",
    "Verif.Ops.C53_add_sub",
    "Verif.Ops.C53_sub_add",
    "Verif.Ops.C53_difference",
    "Verif.Ops.C53_durations",
    "Verif.Ops.C53_order",
    "Verif.Ops.C53_order_trans",
    "Verif.Ops.C53_incomparable",
    "Verif.Ops.C53_add_ieee",
    "Verif.Ops.C53_sub_ieee",
    "Verif.Ops.C53_mul_ieee",
    "Verif.Ops.C53_div_ieee",
    "Verif.Ops.C53_nonvacuous",
    "Verif.Ops.C53_numbers",
    "Verif.Ops.C53_scaling"
   ],
   "note": "The laws of times and comparisons hold for all values absent overflow. The results with infinities are not the IEEE ones (1 / +inf is +inf, 5 - (+inf) is 0); proved exactly for which operands each operator gives the IEEE result."
  },
  {
   "property": "C41",
   "status": "partial",
   "theorems": [
    "Verif.Guards.C41_backward_violated",
    "Verif.Guards.C41_single_precision_violated",
    "Verif.Guards.C41_forward",
    "Verif.Guards.C41_backward_partial",
    "Verif.Guards.C41_nonvacuous",
    "Verif.Guards.C41_unbound"
   ],
   "note": "Violated backwards: the end of the cause is set to the end of the premise (the duration of the command is not used), and models with a constant move the timings of the right-hand side back instead of computing those of the cause; in single precision values need not come back. Proved at the level of the words written and evaluated, for all forms, numberings, periods and values: forwards in full; backwards the timings of the premise, the beginning of the cause and (in exact arithmetic) the value."
  },
  {
   "property": "C42",
   "status": "partial",
   "theorems": [
    "Verif.GuardScan.C42_scan_violated",
    "Verif.GuardScan.C42_yes_sound",
    "Verif.GuardScan.C42_scan_partial",
    "Verif.GuardScan.C42_written_order",
    "Verif.GuardScan.C42_nonvacuous"
   ],
   "note": "Violated: two guards that depend on each other make the scan recurse for ever; for a variable assigned twice only the first assignment is considered; variables inside sets are not looked at. Proved for all codes: a yes is right for guards built from operators; and the scan returns and is exact when each variable is assigned once and no two guards depend on each other."
  },
  {
   "property": "C43",
   "status": "partial",
   "theorems": [
    "Verif.Requirements.C44_fwd_violated",
    "Verif.Requirements.C43_fwd_partial",
    "Verif.Requirements.C43_bwd",
    "Verif.Requirements.C43_simulated_fwd",
    "Verif.Requirements.C43_simulated_bwd",
    "Verif.Requirements.C43_wr_enabled_violated",
    "Verif.Requirements.C43_nonvacuous"
   ],
   "note": "Violated for a model with strong requirements only once one has expired (line 827 erases from the wrong cache: undefined behaviour); wr_enabled is decided by the last weak requirement. Proved for all caches: forward otherwise, backward, simulated forward and backward."
  },
  {
   "property": "C44",
   "status": "partial",
   "theorems": [
    "Verif.Requirements.C44_fwd_violated",
    "Verif.Requirements.C44_fwd_partial",
    "Verif.Requirements.C44_others",
    "Verif.Requirements.C44_store"
   ],
   "note": "Violated: with strong requirements only, an expired one is erased from the other cache. Proved otherwise, and for the other three functions and for storing."
  },
  {
   "property": "C45",
   "status": "partial",
   "theorems": [
    "Verif.Rating.C45_phase_out_violated",
    "Verif.Rating.C45_rate_partial",
    "Verif.Rating.C45_bounds",
    "Verif.Rating.C45_monotone",
    "Verif.Rating.C45_failure_single",
    "Verif.Rating.C45_success_single_partial",
    "Verif.Rating.C45_deletion",
    "Verif.Rating.C45_single_violated",
    "Verif.Rating.C45_nonvacuous"
   ],
   "note": "Violated: the failure that phases a strong model out is not recorded; in single precision a success may lower the rate (counts of millions) and a count of 2^23 is stuck. Proved: exact rate when no failure reaches the threshold; bounds for all histories, also in single precision; monotonicity (exact; single: failures always, successes for moderate counts); the deletion rule in any arithmetic."
  },
  {
   "property": "C46",
   "status": "partial",
   "theorems": [
    "Verif.Counts.C46_counts_violated",
    "Verif.Counts.C46_counts_partial",
    "Verif.Counts.C46_nonvacuous"
   ],
   "note": "Violated: killing both controllers of a model is undefined behaviour or takes the requirement off twice (the count wraps to 2^32-1); a view that goes away without a kill leaves the requirement counted. Proved for all other histories of creations and kills."
  },
  {
   "property": "C47",
   "status": "proved",
   "theorems": [
    "Verif.EvidenceCache.C47_contents",
    "Verif.EvidenceCache.C47_checks",
    "Verif.EvidenceCache.C47_nonvacuous"
   ],
   "note": "For all timed histories of stores, both kinds of checks and invalidations; no undefined behaviour on the cell list."
  },
  {
   "property": "C48",
   "status": "partial",
   "theorems": [
    "Verif.Monitors.C48_outcomes_partial",
    "Verif.Monitors.C48_outcomes_violated",
    "Verif.Monitors.C48_each_clause_violated",
    "Verif.Monitors.C48_second_chance_is_dead",
    "Verif.Monitors.C48_nonvacuous"
   ],
   "note": "Full statement C48_full refuted: two cores both report, a predicted success silences the monitor, a met requirement is reported as a failure at the deadline, the input after a refuted predicted evidence is dropped, a late timer admits a late success. Proved for uninterrupted events: at most one outcome, right causes, not before the deadline, exactly one unless silenced."
  },
  {
   "property": "C49",
   "status": "partial",
   "theorems": [
    "Verif.Monitors.C49_outcomes_partial",
    "Verif.Monitors.C49_predictions",
    "Verif.Monitors.C49_outcomes_violated",
    "Verif.Monitors.C49_nonvacuous"
   ],
   "note": "Full statement C49_full refuted: the secondary controller does not invalidate the prediction, so that the timer registers a failure after a success; two cores can both register. Proved for uninterrupted events for the primary controller, and at most one rated outcome for both."
  },
  {
   "property": "C50",
   "status": "partial",
   "theorems": [
    "Verif.Cst.C50_combinations_violated",
    "Verif.Cst.C50_combinations_partial",
    "Verif.Cst.C50_nonvacuous"
   ],
   "note": "Full statement C50_full refuted: an input that fits two patterns is only tried for the first, so that an admissible combination can be missed. Proved for all streams and all ways of matching: instances use distinct inputs, each pattern once, each input matching its pattern; live overlays stay available; every combination of first matches makes its instance."
  },
  {
   "property": "C51",
   "status": "partial",
   "theorems": [
    "Verif.Cst.C51_sub_models_violated",
    "Verif.Cst.C51_first_pattern_partial",
    "Verif.Cst.C51_nonvacuous"
   ],
   "note": "Full statement C51_full refuted: the constructor looks at the first pattern only, once per pattern. Proved for the first pattern and every history."
  },
  {
   "property": "C65",
   "status": "partial",
   "theorems": [
    "Verif.Cst.C65_guards_violated"
   ],
   "note": "Full statement C65_full refuted; moreover proved that the guards have no influence on any run: they are only evaluated by overlays without code, and every overlay is built with code."
  },
  {
   "property": "C52",
   "status": "partial",
   "theorems": [
    "Verif.SimHorizon.C52_horizon_violated",
    "Verif.SimHorizon.C52_horizon_partial",
    "Verif.SimHorizon.C52_nonvacuous"
   ],
   "note": "Full statement C52_full refuted: the share is computed in single precision, so that with factor 1 more time may be allotted than is left, and the longest horizon is undefined behaviour. Proved for all other inputs: not negative, at most the maximum, the minimum left up to two roundings; with a factor of at most 1-2^-22 the deadline is kept."
  },
  {
   "property": "C66",
   "status": "partial",
   "theorems": [
    "Verif.SimHorizon.C66_depth_violated",
    "Verif.SimHorizon.C66_depth_partial",
    "Verif.SimHorizon.C66_nonvacuous"
   ],
   "note": "Full statement C66_full refuted: with the minimum horizon 0 (shipped settings) or 1 nothing is taken off. Proved for a minimum of at least 2 us, with the exact time left."
  },
  {
   "property": "C54",
   "status": "partial",
   "theorems": [
    "Verif.Pgm.C54_matches_violated",
    "Verif.Pgm.C54_matches_partial",
    "Verif.Pgm.C54_nonvacuous"
   ],
   "note": "Full statement C54_full refuted: an input that fits two patterns is only tried for the first. Proved for all programs, time scopes and streams: the accounts of every overlay, availability of every live overlay, and that every admissible combination makes a complete overlay if no input fits two patterns. That rolling back restores the code is C39."
  },
  {
   "property": "C67",
   "status": "partial",
   "theorems": [
    "Verif.Pgm.C67_anti_violated",
    "Verif.Pgm.C67_anti_partial",
    "Verif.Pgm.C67_nonvacuous"
   ],
   "note": "Full statement C67_full refuted: the flag that a match occurred is cleared before any signal can see it, so that the productions are injected nonetheless; an input that fails the guards makes the overlay deaf; a volatile program may be left without overlay (front of an empty list). Proved for all histories: exactly when productions are injected, no undefined behaviour unless volatile, and single inputs are noticed if the guards always hold."
  },
  {
   "property": "C58",
   "status": "partial",
   "theorems": [
    "Verif.InputPtr.C58_pointers_violated",
    "Verif.InputPtr.C58_pointers_partial",
    "Verif.InputPtr.C58_nonvacuous"
   ],
   "note": "False in full: the position of the word that refers to another object is kept in 8 bits, so a pattern beyond word 255 of a program is given pointers to other words (witness: a program of 262 words). Proved for all programs, inputs and nestings in which those words are among the first 256."
  },
  {
   "property": "C55",
   "status": "proved",
   "theorems": [
    "Verif.GroupViews.C55_visits",
    "Verif.GroupViews.C55_nonvacuous"
   ],
   "note": "For the maps left by any history of loading, injection and deletion: the three loops, and the update loop with deletions and with notifications injected meanwhile (assumed fresh and, as the code ensures, not caused by notifications)."
  },
  {
   "property": "C56",
   "status": "partial",
   "theorems": [
    "Verif.TimeText.C56_text_violated",
    "Verif.TimeText.C56_duration",
    "Verif.TimeText.C56_timestamp",
    "Verif.TimeText.C56_apart",
    "Verif.TimeText.C56_text_partial",
    "Verif.TimeText.C56_nonvacuous"
   ],
   "note": "Full statement C56_full refuted for the least 64-bit value, whose absolute value is undefined. Proved for all other values: both texts are read back as the value they were made from."
  },
  {
   "property": "C57",
   "status": "partial",
   "theorems": [
    "Verif.HasRef.C57_scan_violated",
    "Verif.HasRef.C57_scan_partial",
    "Verif.HasRef.C57_nonvacuous"
   ],
   "note": "Full statement C57_full refuted with four witnesses: data words of times taken for references or for pointers (one of them without end), assignments not scanned, positions inside paths followed as code. Proved exact for all code without these."
  },
  {
   "property": "C68",
   "status": "partial",
   "theorems": [
    "Verif.GroupViews.C68_filed_violated",
    "Verif.GroupViews.C68_filed_partial",
    "Verif.GroupViews.C68_nonvacuous"
   ],
   "note": "Full statement C68_full refuted: the view of a group that memory already knows is put into no map. Proved for all other kinds and routes."
  },
  {
   "property": "C69",
   "status": "partial",
   "theorems": [
    "Verif.LoadTimes.C69_times_violated",
    "Verif.LoadTimes.C69_times_partial",
    "Verif.LoadTimes.C69_nonvacuous"
   ],
   "note": "Full statement C69_full refuted with three well-formed objects: an undefined time becomes a time, times in instantiated programs (and models, composite states) are not moved, a position in a chain is followed as a pointer, without end. Proved for all objects without these in which no time is reached in two ways."
  },
  {
   "property": "C70",
   "status": "partial",
   "theorems": [
    "Verif.Lifetime.C70_lifetime_violated",
    "Verif.Lifetime.C70_lifetime_partial",
    "Verif.Lifetime.C70_no_time",
    "Verif.Lifetime.C70_nonvacuous"
   ],
   "note": "Full statement C70_full refuted: for goals and predictions the base period is left out. Proved for programs and instances of composite states up to 2^23 updates, and for goals and predictions if the base period is one microsecond."
  },
  {
   "property": "C71",
   "status": "partial",
   "theorems": [
    "Verif.Lifetime.C71_focus_violated",
    "Verif.Lifetime.C71_focus_partial",
    "Verif.Lifetime.C71_nonvacuous"
   ],
   "note": "Full statement C71_full refuted: in a group that is not slower one update is left, and a view without end ends or the conversion is undefined. Proved for slower groups, in exact arithmetic, for views that end."
  },
  {
   "property": "C72",
   "status": "partial",
   "theorems": [
    "Verif.Rating.C72_one_group_violated",
    "Verif.Rating.C72_one_group_partial",
    "Verif.Rating.C72_follows",
    "Verif.Rating.C72_nonvacuous"
   ],
   "note": "Full statement C72_full refuted: a strong model that was phased out and then has an earlier prediction come true is active in both groups. Proved: what every counted outcome asks for, in any arithmetic; never both (exact arithmetic) if no success of the primary controller is counted while the model is active in the secondary group."
  },
  {
   "property": "C73",
   "status": "proved",
   "theorems": [
    "Verif.Pgm.C73_fires",
    "Verif.Pgm.C73_nonvacuous"
   ],
   "note": "For all histories of inputs, invalidations and time scopes; which combinations are completed is the subject of C54. Never twice: for streams in which no input is taken twice."
  },
  {
   "property": "C74",
   "status": "partial",
   "theorems": [
    "Verif.Snapshot.C74_snapshot_violated",
    "Verif.Snapshot.C74_snapshot_partial",
    "Verif.Snapshot.C74_nonvacuous"
   ],
   "note": "Full statement C74_full refuted: when only the models are saved, references to entities and other registered objects are dropped and the later ones take their numbers; a view whose origin group is not saved comes from the first object in the file; the object map is one word off after each model or composite state; circular references do not end. Proved for all acyclic graphs if the valid objects referred to and the groups of views are saved too; the object map if there are no models and composite states."
  },
  {
   "property": "C75",
   "status": "proved",
   "theorems": [
    "Verif.Snapshot.C75_image",
    "Verif.Snapshot.C75_nonvacuous"
   ],
   "note": "For all finite graphs of fewer than 65536 objects in which a view with an origin has a host."
  },
  {
   "property": "C76",
   "status": "partial",
   "theorems": [
    "Verif.Values.C76_copies_violated",
    "Verif.Values.C76_copies_partial",
    "Verif.Values.C76_carried_partial",
    "Verif.Values.C76_instants",
    "Verif.Values.C76_nonvacuous"
   ],
   "note": "Full statement C76_full refuted: a data word of a time or text whose leading byte is that of a pointer is followed as a pointer, so an instant is copied as another one, or copying does not end. Proved for all structures without such words, up to 4096 words; for times exactly those instants are named."
  },
  {
   "property": "C77",
   "status": "partial",
   "theorems": [
    "Verif.Instance.C77_instance_violated",
    "Verif.Instance.C77_instance_partial",
    "Verif.Instance.C77_nonvacuous"
   ],
   "note": "Full statement C77_full refuted: an unbound template variable, and any variable in a time interval of the template arguments, is bound after reading to the atom that names the variable. Proved if all template variables are bound and none is in a time interval, for structures as in C76 and C80 and up to 4096 words."
  },
  {
   "property": "C78",
   "status": "proved",
   "theorems": [
    "Verif.Bind.C78_binds",
    "Verif.Bind.C78_complete",
    "Verif.Bind.C78_needs",
    "Verif.Bind.C78_nonvacuous"
   ],
   "note": "For all finite patterns; bindings whose values can be copied in the sense of C76 and C80, objects of up to 4096 words and references, as the statement says."
  },
  {
   "property": "C79",
   "status": "proved",
   "theorems": [
    "Verif.Instance.C79_exposed",
    "Verif.Instance.C79_ordered",
    "Verif.Instance.C79_position",
    "Verif.Instance.C79_nonvacuous"
   ],
   "note": "The place in the instance for bindings whose values can be copied in the sense of C76 and C80 and instances of up to 4096 words, as the statement says; existence and order of the positions without these conditions."
  },
  {
   "property": "C80",
   "status": "partial",
   "theorems": [
    "Verif.Values.C80_references_violated",
    "Verif.Values.C80_references_partial",
    "Verif.Values.C80_nonvacuous"
   ],
   "note": "Full statement C80_full refuted: a value keeps the words of a structure and not the references, so that the set [c] bound to a variable becomes the set of whatever the object written into has at that number, or of nothing. Proved for all structures without references. C77, C78 and C79 are proved for bindings to such structures."
  },
  {
   "property": "C81",
   "status": "partial",
   "theorems": [
    "Verif.Unify.C81_unified_violated",
    "Verif.Unify.C81_unified_partial",
    "Verif.Unify.C81_nonvacuous"
   ],
   "note": "Full statement C81_full refuted: a variable bound to an object takes the word it meets next for a reference without looking at its kind, so that (v v) matches an entity and the number 1.0 and reads outside the references for other numbers; structures with references, met twice by a variable, are compared without references (a read outside them); durations and texts are compared as numbers are (C61). Proved for variables that meet only references or none, structures without references where variables meet them, and texts and durations compared within the tolerance."
  },
  {
   "property": "C82",
   "status": "partial",
   "theorems": [
    "Verif.Abstract.C82_one_variable_violated",
    "Verif.Abstract.C82_abstracted_partial",
    "Verif.Abstract.C82_in_step",
    "Verif.Abstract.C82_nonvacuous"
   ],
   "note": "Full statement C82_full refuted: the words of durations and texts are compared as numbers are (C61), so that durations of 200 and 100 ms get one variable and the pattern does not tell them apart; a search told to start right after the last variable reads past the map. Proved for texts and durations compared within the tolerance, structures other than sets and plain objects without pointers in them, searches that start inside the map, and at most 4096 words, references and variables. Timings in step (C82_in_step) without these conditions."
  },
  {
   "property": "C83",
   "status": "partial",
   "theorems": [
    "Verif.Extract.C83_wrong_component_violated",
    "Verif.Extract.C83_assembled_partial",
    "Verif.Extract.C83_nonvacuous"
   ],
   "note": "Full statement C83_full refuted: make_f_icst passes the number of the round instead of the position of the instance, so that another component is discarded for an instance with no part observed, the observation itself in the example (its pattern is then not the first); the instance made has no components_, so that it is not found again; with duplicate inputs the array of positions overflows. Proved when each instance observed has a part observed that no other of them has, without finding the new instance again."
  },
  {
   "property": "C84",
   "status": "partial",
   "theorems": [
    "Verif.Extract.C84_other_order_violated",
    "Verif.Extract.C84_right_pattern_partial",
    "Verif.Extract.C84_all_partial",
    "Verif.Extract.C84_found",
    "Verif.Extract.C84_nonvacuous"
   ],
   "note": "Full statement C84_full refuted: components_ is in the order of arrival, axioms first, while the index is used in the order of the patterns; two inputs in the other order than their patterns get the pattern of each other. Proved for patterns with axioms first and inputs that came in the order of the patterns; C84_found, that a pattern of the state is found without reading outside, for all orders."
  },
  {
   "property": "C85",
   "status": "partial",
   "theorems": [
    "Verif.Source.C85_read_back_violated",
    "Verif.Source.C85_read_back_partial",
    "Verif.Source.C85_injective_partial",
    "Verif.Source.C85_nonvacuous"
   ],
   "note": "Full statement C85_full refuted: the tail of a structure takes the brackets after it, so that (f (g):t) is read with the tail :t); the label of an empty set goes to the next structure as well; an empty set at the end of a line is lost. Proved for all structures without tails in which empty sets have no labels, none of them alone on a line."
  },
  {
   "property": "C86",
   "status": "partial",
   "theorems": [
    "Verif.Source.C86_ends_violated",
    "Verif.Source.C86_ends_partial",
    "Verif.Source.C86_lines_partial",
    "Verif.Source.C86_nonvacuous"
   ],
   "note": "Full statement C86_full refuted: reading does not end if a string is open at the end of the text, nor if the last line is made of spaces (seekg clears eofbit while failbit stays set). Proved for all texts with no quotes in the last line that do not end with a space, in particular all whose last line ends."
  },
  {
   "property": "C87",
   "status": "partial",
   "theorems": [
    "Verif.Macro.C87_substituted_violated",
    "Verif.Macro.C87_substituted_partial",
    "Verif.Macro.C87_refused",
    "Verif.Macro.C87_renamed",
    "Verif.Macro.C87_nonvacuous"
   ],
   "note": "Full statement C87_full refuted: only the first occurrence of a parameter is replaced, what is put for one parameter is taken for a later one ((m x y) for (f x y), used as (m y z), gives (f z y)), and a parameter that is the whole body is kept. Proved where the body is not itself a parameter, has each parameter at most once, and no argument has the name of a later parameter in it."
  },
  {
   "property": "C88",
   "status": "partial",
   "theorems": [
    "Verif.Macro.C88_conditions_violated",
    "Verif.Macro.C88_expanded_partial",
    "Verif.Macro.C88_no_use_partial",
    "Verif.Macro.C88_order",
    "Verif.Macro.C88_nonvacuous"
   ],
   "note": "Full statement C88_full refuted: processing stops for good at the first condition, so that sections whose conditions do not hold are written and nothing after is expanded. Proved for all files without conditions, counters, !undef (undefined behaviour, C88_order) and !load. C88_order: whether a macro is expanded before its definition depends on what else changes."
  },
  {
   "property": "C89",
   "status": "partial",
   "theorems": [
    "Verif.Classes.C89_opcodes_violated",
    "Verif.Classes.C89_too_many",
    "Verif.Classes.C89_opcodes_partial",
    "Verif.Classes.C89_nonvacuous"
   ],
   "note": "Full statement C89_full refuted: names are not checked, so that a class is lost under its name when an operator has the same; and atoms have 12 bits for the opcode while classes are counted with 16, so that the 4095th class of a file has the opcode of xpr (C89_too_many, with different names). Proved whenever no name is used twice and there are at most 4096 opcodes in use of each kind."
  },
  {
   "property": "C90",
   "status": "partial",
   "theorems": [
    "Verif.Classes.C90_definitions_violated",
    "Verif.Classes.C90_definitions_partial",
    "Verif.Classes.C90_nonvacuous"
   ],
   "note": "Full statement C90_full refuted: places within an argument are filled from the arguments that come after it, so that with (u {p: :~} q:) the place takes q:. Proved where arguments have places only in the last argument, and none in arguments of sets (there the list is empty, and reading its last element undefined); with names that are different and not those of a set with a number (LastClassID). A class without members is outside: front() of an empty list is undefined."
  },
  {
   "property": "C91",
   "status": "partial",
   "theorems": [
    "Verif.Compile.C91_compiled_violated",
    "Verif.Compile.C91_compiled_partial",
    "Verif.Compile.C91_nonvacuous"
   ],
   "note": "Full statement C91_full refuted: how a class is used is kept in the class, so that reading a member of a nested object changes how the rest of a set is read ((node [(node |[] nil)] nil) is refused); names of variables before ] are not read ((mdl [x: x]) is refused); characters beyond ASCII spill over those before them in a word. Proved for ASCII strings, names of variables or functions not before ], no member inside a set read by a class that uses that class in another way, and no labels before operators that return a set or a class where anything may stand, nor where one class must stand. Labels only in models and composite states; indirections and members that are types are not in the model of the meaning."
  },
  {
   "property": "C92",
   "status": "partial",
   "theorems": [
    "Verif.Typed.C92_typed_violated",
    "Verif.Typed.C92_typed_partial",
    "Verif.Typed.C92_nonvacuous"
   ],
   "note": "Full statement C92_full refuted: :: in a set switches the check of the number of members off for the next expression ((mdl [x: ::] (p x)) compiles where p has two members); the elements of a set are read in the way in which another member uses their class ((node [|[] (node |[] nil)] nil) compiles); an object of any class may be referred to where an object of one class must stand; a label of an operator that returns a set need not be a variable. Proved for sources where :: only stands after members of expressions and where, in a set that a member reads by a class, no member uses that class in another way, without the class of objects referred to and without labels of such operators."
  },
  {
   "property": "C93",
   "status": "partial",
   "theorems": [
    "Verif.Labels.C93_labels_violated",
    "Verif.Labels.C93_labels_partial",
    "Verif.Labels.C93_nonvacuous"
   ],
   "note": "Full statement C93_full refuted: a decompiler keeps the names of the image it decompiled before, as happens in AERA/main.cpp, where models are decompiled after objects: no objects are counted if a named object is found at the place of an unnamed one, and objects get labels of objects of other classes. Proved for the first image that a decompiler is given."
  },
  {
   "property": "C94",
   "status": "partial",
   "theorems": [
    "Verif.Labels.C94_ignored_violated",
    "Verif.Labels.C94_ignored_partial",
    "Verif.Labels.C94_nonvacuous"
   ],
   "note": "Full statement C94_full refuted: the identifiers of named objects are kept in 16 bits, so an object without a name is left out if its identifier has the low 16 bits of that of a named one. Proved for images without such objects, by a new decompiler."
  },
  {
   "property": "C95",
   "status": "partial",
   "theorems": [
    "Verif.Decomp.C95_decompiled_violated",
    "Verif.Decomp.C95_decompiled_partial",
    "Verif.Decomp.C95_compiled_partial",
    "Verif.Decomp.C95_nonvacuous"
   ],
   "note": "Full statement C95_full refuted: an undefined time (|ts) is written as the time -1us and comes back as a time; an undefined node is written |sid, which the compiler does not know; a variable first used in the third member of a model or later is written without a colon and is refused. Proved, for any numbers printed, for sources within the limits of C91 and without what plain leaves out: |nb, |ts, |st, |nid, numbers that are not read as they are written, the least time of 64 bits, strings of 255 bytes or with quotation marks, such variables, assignments outside guards, names of variables and functions last in a set, sets of more than thirteen elements in commands, models nested in other objects. Labels are taken as given (C93 is about them)."
  },
  {
   "property": "C96",
   "status": "partial",
   "theorems": [
    "Verif.Cycle.C96_requests_violated",
    "Verif.Cycle.C96_requests_partial",
    "Verif.Cycle.C96_nonvacuous"
   ],
   "note": "Full statement C96_full refuted: the update never calls update_c_act_thr and update_c_sln_thr, so that the thresholds of c-activation and c-saliency never change. Proved for the other five values; for c-activation and c-saliency under the condition that no existing object is injected between the updates (that call updates them early). Exact arithmetic, as in C01."
  },
  {
   "property": "C97",
   "status": "partial",
   "theorems": [
    "Verif.Cycle.C97_activation_violated",
    "Verif.Cycle.C97_activation_partial",
    "Verif.Cycle.C97_nonvacuous"
   ],
   "note": "Full statement C97_full refuted in five ways: whether a view was active is judged by the new threshold, so that programs stay active when the threshold rises and are not activated when it sinks; the arguments of the constructor of the group state may be evaluated in an order in which the old c-activation is read after the update; an edge that falls into an update which skips a view is lost; and so is one at the injection of an existing object. Proved, for any arithmetic, for histories without these (Calm); then also for skipped views."
  },
  {
   "property": "C98",
   "status": "partial",
   "theorems": [
    "Verif.Cycle.C98_viewing_violated",
    "Verif.Cycle.C98_viewing_partial",
    "Verif.Cycle.C98_nonvacuous"
   ],
   "note": "Full statement C98_full refuted: a threshold that rises, a view deleted for want of resilience, a group injected into one that is not c-active (inject_group does not ask), and the order of evaluation each leave a registration. Proved for histories without these (VCalm)."
  },
  {
   "property": "C99",
   "status": "partial",
   "theorems": [
    "Verif.Cycle.C99_inputs_violated",
    "Verif.Cycle.C99_inputs_partial",
    "Verif.Cycle.C99_nonvacuous"
   ],
   "note": "Full statement C99_full refuted: whether a view was salient is judged by the new threshold, so that views above a threshold that sinks are not given to anyone, and views that rise together with it are given twice. Proved under the conditions of C97 for views whose saliency does not lie between the old and the new threshold."
  },
  {
   "property": "C100",
   "status": "partial",
   "theorems": [
    "Verif.Cycle.C100_latecomers_violated",
    "Verif.Cycle.C100_latecomers_partial",
    "Verif.Cycle.C100_nonvacuous"
   ],
   "note": "Full statement C100_full refuted: inject_group makes jobs for the view without recording it as newly salient, so that latecomers miss it. Proved under the conditions of C97 for periods without injected groups."
  },
  {
   "property": "C101",
   "status": "partial",
   "theorems": [
    "Verif.Cycle.C101_signals_violated",
    "Verif.Cycle.C101_signals_partial",
    "Verif.Cycle.C101_nonvacuous"
   ],
   "note": "Full statement C101_full refuted: when the threshold rises above the activation of an active program, the program stays active (C97), and when its activation then rises too it gets a second signalling job. Proved under the conditions of C97."
  },
  {
   "property": "C102",
   "status": "partial",
   "theorems": [
    "Verif.Observe.C102_device_facts_violated",
    "Verif.Observe.C102_device_facts_partial",
    "Verif.Observe.C102_nonvacuous"
   ],
   "note": "Full statement C102_full refuted: a list of 256 numbers becomes an empty set, with 65536 the call does not return, a text with a character that is not ASCII becomes another. Proved for values of at most 255 members and texts of at most 254 ASCII characters."
  },
  {
   "property": "C103",
   "status": "partial",
   "theorems": [
    "Verif.Observe.C103_efferent_copy_violated",
    "Verif.Observe.C103_efferent_copy_partial",
    "Verif.Observe.C103_nonvacuous"
   ],
   "note": "Full statement C103_full refuted: with a tolerance of more than half of the sampling period the interval ends before it begins, and before the time reference it is that of another period. Proved otherwise."
  },
  {
   "property": "C104",
   "status": "partial",
   "theorems": [
    "Verif.TestWorld.C104_answers_violated",
    "Verif.TestWorld.C104_answers_partial",
    "Verif.TestWorld.C104_nonvacuous"
   ],
   "note": "Full statement C104_full refuted: a step beyond the first or last place is answered as executed although nothing is done, and functions with opcodes of more than eight bits are taken for others. Proved otherwise, after all histories of commands without null references."
  },
  {
   "property": "C105",
   "status": "partial",
   "theorems": [
    "Verif.TestWorld.C105_hand_violated",
    "Verif.TestWorld.C105_hand_partial",
    "Verif.TestWorld.C105_nonvacuous"
   ],
   "note": "Full statement C105_full refuted: steps beyond the ends are accepted, so that the accepted steps do not add up to the place. Proved: the places reported never leap; the steps add up as long as none of them goes beyond the ends; the time from which an accepted step is reported, if no other command is sent meanwhile (a witness shows that another command delays it)."
  },
  {
   "property": "C106",
   "status": "partial",
   "theorems": [
    "Verif.TestWorld.C106_injected_violated",
    "Verif.TestWorld.C106_injected_partial",
    "Verif.TestWorld.C106_nonvacuous"
   ],
   "note": "Full statement C106_full refuted: each goal injected in the first 3.7 seconds begins after it ends. Proved for all else; the arithmetic of the ball and the cart is a parameter."
  },
  {
   "property": "C107",
   "status": "partial",
   "theorems": [
    "Verif.Screen.C107_eye_violated",
    "Verif.Screen.C107_eye_partial",
    "Verif.Screen.C107_nonvacuous"
   ],
   "note": "Full statement C107_full refuted: a displacement of 1.5 moves the eye by 1 and is answered as executed. Proved for whole numbers below 2^30 and opcodes of eight bits."
  },
  {
   "property": "C108",
   "status": "proved",
   "theorems": [
    "Verif.Screen.C108_fovea_pattern",
    "Verif.Screen.C108_nonvacuous"
   ],
   "note": "For all histories; the names of the 512 patterns are those of the table in video_screen.cpp."
  },
  {
   "property": "C109",
   "status": "partial",
   "theorems": [
    "Verif.Focus.C109_focus_violated",
    "Verif.Focus.C109_focus_partial",
    "Verif.Focus.C109_nonvacuous",
    "Verif.Focus.C109_remembers",
    "Verif.Focus.C109_recalled",
    "Verif.Focus.C109_recalled_nonvacuous"
   ],
   "note": "Full statement C109_full refuted: an input kept back for one target and matching another is sent twice; copies have certainty one, whatever was observed; an input that is to hold is shown as holding from twice the tolerance after now; an input with SYNC_ONCE_AXIOM reaches no group and an unset view is recorded. Proved, for other inputs: success, relevance exactly, sent once or twice, once if no target leaves anything open, the exact form of what is sent, and that exactly what is recalled is sent, once. Over histories: what some open target might need is kept and sent by the time it is recalled within the time horizon."
  },
  {
   "property": "C110",
   "status": "partial",
   "theorems": [
    "Verif.Focus.C110_once_violated",
    "Verif.Focus.C110_once_partial",
    "Verif.Focus.C110_nonvacuous"
   ],
   "note": "Full statement C110_full refuted by two goals and one input. Proved for all histories: at most twice; at most once if everything is passed on or no target leaves anything open; never what was not given."
  },
  {
   "property": "C111",
   "status": "proved",
   "theorems": [
    "Verif.Focus.C111_targets",
    "Verif.Focus.C111_nonvacuous"
   ],
   "note": "For all histories and events. What the jobs do is not part of it."
  },
  {
   "property": "C112",
   "status": "proved",
   "theorems": [
    "Verif.Focus.C112_watch",
    "Verif.Focus.C112_once",
    "Verif.Focus.C112_setup",
    "Verif.Focus.C112_nonvacuous"
   ],
   "note": "For all inputs and schedules of the jobs of a watch. That jobs of one watch exclude each other is taken from its lock."
  },
  {
   "property": "C113",
   "status": "partial",
   "theorems": [
    "Verif.Predict.C113_predictions_violated",
    "Verif.Predict.C113_predictions_partial",
    "Verif.Predict.C113_nonvacuous",
    "Verif.Predict.C113_chained",
    "Verif.Predict.C113_chained_nonvacuous"
   ],
   "note": "Full statement C113_full refuted: an actual input makes the same prediction once per requirement in force (already_predicted is only filled for predicted inputs), each with a monitor of its own; and a simulation that forbids the prediction contributes its binding to what a later one allows. Proved: soundness and completeness, distinctness for predicted inputs, at most one per binding for actual ones, if forbidding simulations give no bindings (always so without strong requirements). C113_chained composes this with the caches of requirements of C43."
  },
  {
   "property": "C114",
   "status": "partial",
   "theorems": [
    "Verif.Predict.C114_followed_violated",
    "Verif.Predict.C114_followed_partial",
    "Verif.Predict.C114_nonvacuous"
   ],
   "note": "Full statement C114_full refuted: register_requirement comes before the tests for late predictions and for predicted inputs, so that requirements are held to account for predictions that nothing follows. Proved: the rest in general, and this for actual inputs whose predictions are in time."
  },
  {
   "property": "C115",
   "status": "partial",
   "theorems": [
    "Verif.Predict.C115_instance_violated",
    "Verif.Predict.C115_instance_partial",
    "Verif.Predict.C115_nonvacuous"
   ],
   "note": "Full statement C115_full refuted: destination and origin of the view are exchanged, so that nothing ever reaches the secondary group and the group of the model gets the instance twice. Proved: the group of the model gets it."
  },
  {
   "property": "C116",
   "status": "partial",
   "theorems": [
    "Verif.Predict.C116_requirements_violated",
    "Verif.Predict.C116_requirements_partial",
    "Verif.Predict.C116_kept",
    "Verif.Predict.C116_nonvacuous"
   ],
   "note": "Full statement C116_full refuted: what one simulation of the input forbids is handed over as allowed by another (see C113). Proved for actual inputs, for predictions that are no simulations, and for simulations if those that forbid chaining give no bindings; what the other controller does with it is proved in general."
  },
  {
   "property": "C117",
   "status": "partial",
   "theorems": [
    "Verif.Predict.C117_defeat_violated",
    "Verif.Predict.C117_defeat_partial",
    "Verif.Predict.C117_nonvacuous"
   ],
   "note": "Full statement C117_full refuted in both parts: the predicted instance of a command or reuse model does not depend on the requirement, and a strong requirement predicted in more than one simulation withdraws nothing. Proved: predictions depend on it; one in a single simulation withdraws what it defeats."
  },
  {
   "property": "C118",
   "status": "partial",
   "theorems": [
    "Verif.Predict.C118_secondary_violated",
    "Verif.Predict.C118_secondary_partial",
    "Verif.Predict.C118_nonvacuous"
   ],
   "note": "Full statement C118_full refuted: chaining_allowed is computed and not used, requirements are always passed on as allowed. Proved: the rest."
  },
  {
   "property": "C119",
   "status": "proved",
   "theorems": [
    "Verif.Abduce.C119_pursued",
    "Verif.Abduce.C119_nonvacuous"
   ],
   "note": "For all goals that are not simulated. What is known, and how the binding map binds, are parameters."
  },
  {
   "property": "C120",
   "status": "partial",
   "theorems": [
    "Verif.Abduce.C120_life_violated",
    "Verif.Abduce.C120_life_partial",
    "Verif.Abduce.C120_nonvacuous"
   ],
   "note": "Full statement C120_full refuted: inject_goal computes the resilience for a life of no length, so goals that are acted upon live one period whatever their end, and goals made when a requirement arrives may be past. Proved: all that is made in simulations has the right resilience, and goals made at once are in time if the left-hand side ends when the forward timings do."
  },
  {
   "property": "C121",
   "status": "partial",
   "theorems": [
    "Verif.Abduce.C121_simulated_partial",
    "Verif.Abduce.C121_simulated_violated",
    "Verif.Abduce.agree_of_model",
    "Verif.Abduce.C121_nonvacuous"
   ],
   "note": "Full statement C121_full refuted: a simulated branch that arrives at something known makes a view for its outcome and never injects it; the prediction at the end of a simulation is bound before the guards are evaluated. Proved: the rest."
  },
  {
   "property": "C122",
   "status": "partial",
   "theorems": [
    "Verif.Abduce.C122_waiting_partial",
    "Verif.Abduce.C122_waiting_violated",
    "Verif.Abduce.C122_nonvacuous"
   ],
   "note": "Full statement C122_full refuted: for a model with strong requirements only, of which there is no instance, the ground is NULL and read. Proved: the rest in general, and absence of undefined behaviour for models with weak requirements. That storing a stored confidence changes nothing is a hypothesis, proved for the numbers of the source and confidences from 0."
  },
  {
   "property": "C123",
   "status": "partial",
   "theorems": [
    "Verif.Abduce.C123_signalled_partial",
    "Verif.Abduce.C123_signalled_violated",
    "Verif.Abduce.C123_nonvacuous"
   ],
   "note": "Full statement C123_full refuted: the validities kept are those common to the requirements, so that a command which two allow stands although both are withdrawn. Proved: it is predicted once and stands while one of its reasons does."
  },
  {
   "property": "C124",
   "status": "partial",
   "theorems": [
    "Verif.Commit.C124_commit_violated",
    "Verif.Commit.C124_commit_partial",
    "Verif.Commit.C124_nonvacuous"
   ],
   "note": "Full statement C124_full refuted: mandatory solutions are carried out only if there is an optional one, also if withdrawn, and as often as an outcome came. Proved: the rest, and that mandatory ones are carried out if there is an optional one."
  },
  {
   "property": "C125",
   "status": "partial",
   "theorems": [
    "Verif.Commit.C125_commitment_violated",
    "Verif.Commit.C125_commitment_partial",
    "Verif.Commit.C125_acted_upon",
    "Verif.Commit.C125_nonvacuous"
   ],
   "note": "Full statement C125_full refuted: the confidence is that of the goal monitored, the success rate and the threshold of the model are ignored. Proved: equal effects if the confidence is the one the model would give it and exceeds the threshold; these are the ones of C119."
  },
  {
   "property": "C126",
   "status": "partial",
   "theorems": [
    "Verif.Commit.C126_damage_violated",
    "Verif.Commit.C126_damage_partial",
    "Verif.Commit.C126_nonvacuous"
   ],
   "note": "Full statement C126_full refuted: only the first mandatory simulation that does harm is stopped, then no other. Proved: only harmful ones are stopped; all are if no mandatory one is."
  },
  {
   "property": "C127",
   "status": "partial",
   "theorems": [
    "Verif.Drives.C127_drives_violated",
    "Verif.Drives.C127_drives_partial",
    "Verif.Drives.C127_nonvacuous"
   ],
   "note": "Full statement C127_full refuted: a model without output groups reads beyond its code; the group of the drives is notified of the goal too, since get_rdx_out_group_count is not used; the goal is given the resilience of a life of no length. Proved: the rest, for models with an output group."
  },
  {
   "property": "C128",
   "status": "partial",
   "theorems": [
    "Verif.Drives.C128_told_violated",
    "Verif.Drives.C128_told_partial",
    "Verif.Drives.C128_nonvacuous"
   ],
   "note": "Full statement C128_full refuted for models without output groups only, which read beyond their code. Proved for all others."
  },
  {
   "property": "C129",
   "status": "partial",
   "theorems": [
    "Verif.Drives.C129_outcomes_violated",
    "Verif.Drives.C129_outcomes_partial",
    "Verif.Drives.C129_nonvacuous"
   ],
   "note": "Full statement C129_full refuted: two cores may both find the drive standing and both tell its outcome; a predicted success silences the monitor for good, so that the drive gets no outcome. Proved: the rest for events that do not interrupt each other, and completeness when no monitor is silenced."
  },
  {
   "property": "C130",
   "status": "proved",
   "theorems": [
    "Verif.Assume.C130_assumed",
    "Verif.Assume.C130_nonvacuous"
   ],
   "note": "For all states. What chaining, monitors, requirements and guards answer for the input are parameters."
  },
  {
   "property": "C131",
   "status": "partial",
   "theorems": [
    "Verif.Assume.C131_own_violated",
    "Verif.Assume.C131_own_partial",
    "Verif.Assume.C131_nonvacuous"
   ],
   "note": "Full statement C131_full refuted: the controller forgets an assumption when it comes as an input for the first time, and treats it like any fact when it becomes salient again. Proved: the first time nothing is taken from it, whatever came between."
  },
  {
   "property": "C132",
   "status": "partial",
   "theorems": [
    "Verif.Assume.C132_rating_violated",
    "Verif.Assume.C132_rating_partial",
    "Verif.Assume.C132_nonvacuous"
   ],
   "note": "Full statement C132_full refuted both ways, since evidence is taken for an assumption exactly if its confidence is not 1: assumptions of a model that never failed rate models, actual evidence of less confidence does not. Proved: assumptions whose confidence is below 1 do not, certain evidence does."
  },
  {
   "property": "C133",
   "status": "partial",
   "theorems": [
    "Verif.Learn.C133_causes_violated",
    "Verif.Learn.C133_causes_partial",
    "Verif.Learn.C133_nonvacuous"
   ],
   "note": "Full statement C133_full refuted: a state is made of the facts that hold when the old observation starts to, and those are not tried any more, though each of them may be the cause. Proved: only possible causes are tried, in order; all are, unless they hold then; no undefined behaviour."
  },
  {
   "property": "C134",
   "status": "partial",
   "theorems": [
    "Verif.Learn.C134_reasons_violated",
    "Verif.Learn.C134_crowd",
    "Verif.Learn.C134_reasons_partial",
    "Verif.Learn.C134_nonvacuous"
   ],
   "note": "Full statement C134_full refuted: for an |fact the state found is assigned to a local variable of the same name and NULL is read; instances of states among the inputs may have facts left out that are not tried either (C83). Proved: the rest; facts left out hold when one that was tried starts to, and are in its state if no input is an instance of a state."
  },
  {
   "property": "C135",
   "status": "partial",
   "theorems": [
    "Verif.Learn.C135_reasons_violated",
    "Verif.Learn.C135_reasons_partial",
    "Verif.Learn.C135_nonvacuous"
   ],
   "note": "Full statement C135_full refuted: instances of states among the inputs may have facts left out that are not tried either (C83). Proved: the rest; facts left out hold when one that was tried starts to, and are in its state if no input is an instance of a state."
  },
  {
   "property": "C136",
   "status": "partial",
   "theorems": [
    "Verif.Learn.C136_news_violated",
    "Verif.Learn.C136_news_partial",
    "Verif.Learn.C136_nonvacuous"
   ],
   "note": "Full statement C136_full refuted: the instance of a state made has no components and is not found again, so that an equal state is made and sent for each cause of a change. Proved: all else. The signatures of a model and its requirement are taken to differ."
  },
  {
   "property": "C137",
   "status": "partial",
   "theorems": [
    "Verif.Lapse.C137_sleep_violated",
    "Verif.Lapse.C137_lost",
    "Verif.Lapse.C137_sleep_partial",
    "Verif.Lapse.C137_nonvacuous"
   ],
   "note": "Full statement C137_full refuted: lose_activation does not activate the model in the secondary group, so that it is active nowhere, for good (C137_lost). Proved: it sleeps in the primary group, and only then."
  },
  {
   "property": "C138",
   "status": "partial",
   "theorems": [
    "Verif.Lapse.C138_idle_violated",
    "Verif.Lapse.C138_forgotten",
    "Verif.Lapse.C138_idle_partial",
    "Verif.Lapse.C138_forgets",
    "Verif.Lapse.C138_nonvacuous"
   ],
   "note": "Full statement C138_full refuted: last_match_time_ is not renewed when the controller gains activation, so that a model put aside long after its creation is forgotten at the first input that does not match. Proved: a match within the horizon always protects it."
  },
  {
   "property": "C139",
   "status": "partial",
   "theorems": [
    "Verif.Lapse.C139_gone_violated",
    "Verif.Lapse.C139_gone_partial",
    "Verif.Lapse.C139_unknown",
    "Verif.Lapse.C139_nonvacuous"
   ],
   "note": "Full statement C139_full refuted: a model killed because it has no requirement or a part of it is gone stays in the white list, and is not learned again. Proved: the views and controllers are gone after the updates; failed models are refused, idle ones forgotten."
  },
  {
   "property": "C140",
   "status": "partial",
   "theorems": [
    "Verif.Lapse.C140_cascade_violated",
    "Verif.Lapse.C140_cascade_partial",
    "Verif.Lapse.C140_settles",
    "Verif.Lapse.C140_nonvacuous"
   ],
   "note": "Full statement C140_full refuted: controllers that sleep take no inputs, and those made before their parts do not refer to them; both outlive their parts. Proved: nothing else dies; everything built on something killed dies if active and made in order; inputs settle."
  },
  {
   "property": "C141",
   "status": "partial",
   "theorems": [
    "Verif.Prods.C141_all_violated",
    "Verif.Prods.C141_all_partial",
    "Verif.Prods.C141_prefix",
    "Verif.Prods.C141_nonvacuous"
   ],
   "note": "Full statement C141_full refuted: an unknown function is found only when the commands before it have been executed; for objects built by red sections the program itself is injected, and words of its code are overwritten or what lies behind it. Proved: all else, and in the first case exactly the commands before have been executed (C141_prefix)."
  },
  {
   "property": "C142",
   "status": "partial",
   "theorems": [
    "Verif.Prods.C142_notes_violated",
    "Verif.Prods.C142_notes_partial",
    "Verif.Prods.C142_nonvacuous"
   ],
   "note": "Full statement C142_full refuted: commands other than inject, eject, mod, set and those to devices are counted but not written and leave blank lines; injections without view lead to an empty marker. Proved: what is reported is right and in order, and complete otherwise."
  },
  {
   "property": "C143",
   "status": "proved",
   "theorems": [
    "Verif.Prods.C143_facts",
    "Verif.Prods.C143_tolerance",
    "Verif.Prods.C143_nonvacuous"
   ],
   "note": "For all programs and times. The tolerance is below half the sampling period (C143_tolerance: otherwise the fact ends before it starts)."
  },
  {
   "property": "C144",
   "status": "partial",
   "theorems": [
    "Verif.ModSet.C144_modset_violated",
    "Verif.ModSet.C144_modset_partial",
    "Verif.ModSet.C144_views",
    "Verif.ModSet.C144_nonvacuous"
   ],
   "note": "Full statement C144_full refuted: mod and set want the last word of the code, so that the threshold of an object with parts (a fact) cannot be changed; set does not clamp; groups are taken for views: a null pointer if referred to, a request for another view if an input. Proved: objects without parts, views, whatever is asked between two updates."
  },
  {
   "property": "C145",
   "status": "partial",
   "theorems": [
    "Verif.ModSet.C145_fvw_violated",
    "Verif.ModSet.C145_fvw_partial",
    "Verif.ModSet.C145_nonvacuous"
   ],
   "note": "Full statement C145_full refuted: the view found is deleted while its group and object still have it, and 32 bits of the address of the group are kept. Proved: the values copied; other views are left alone; nothing happens without a view."
  },
  {
   "property": "C146",
   "status": "partial",
   "theorems": [
    "Verif.Ctx.C146_equal_violated",
    "Verif.Ctx.C146_not_transitive",
    "Verif.Ctx.C146_equal_partial",
    "Verif.Ctx.C146_nonvacuous"
   ],
   "note": "Full statement C146_full refuted: the words of timestamps, durations and strings are followed as if they were pointers, so that a timestamp can differ from itself and equal another; = is not transitive. Proved: values none of whose raw words looks like a pointer or a structure, variables that do not stand for structures in place or chains of pointers."
  },
  {
   "property": "C147",
   "status": "partial",
   "theorems": [
    "Verif.Ctx.C147_match_violated",
    "Verif.Ctx.C147_match_partial",
    "Verif.Ctx.C147_nonvacuous"
   ],
   "note": "Full statement C147_full refuted: (pair x: x) matches (pair 1 2); a timestamp with a word that looks like a wildcard matches others. Proved: with raw words that look like atoms, exactly the instances of the skeleton, variables aside, match; all of it if no variable occurs twice."
  },
  {
   "property": "C148",
   "status": "partial",
   "theorems": [
    "Verif.Ctx.C148_build_violated",
    "Verif.Ctx.C148_build_partial",
    "Verif.Ctx.C148_nonvacuous"
   ],
   "note": "Full statement C148_full refuted: an argument that is an object is copied into the new object rather than referred to; an input that is a member is taken by the wrong number. Proved: all values whose members are reached by the pointers listed in via, up to 4096 cells."
  },
  {
   "property": "C149",
   "status": "partial",
   "theorems": [
    "Verif.Tcp.C149_data_become_facts_violated",
    "Verif.Tcp.C149_class_violated",
    "Verif.Tcp.C149_setup_violated",
    "Verif.Tcp.C149_null_violated",
    "Verif.Tcp.C149_data_become_facts_partial",
    "Verif.Tcp.C149_nonvacuous"
   ],
   "note": "Full statement C149_full refuted: truth values are dropped, facts of values of a class end when they begin, nothing is injected after a second message of setup, and an unknown identifier can give a set with a null object. Proved: everything else, over all histories without a second setup."
  },
  {
   "property": "C150",
   "status": "partial",
   "theorems": [
    "Verif.Tcp.C150_commands_sent_violated",
    "Verif.Tcp.C150_opcode_violated",
    "Verif.Tcp.C150_id_violated",
    "Verif.Tcp.C150_entity_violated",
    "Verif.Tcp.C150_setup_violated",
    "Verif.Tcp.C150_commands_sent_partial",
    "Verif.Tcp.C150_nonvacuous"
   ],
   "note": "Full statement C150_full refuted: a command for an unknown object is answered as executed though nothing is sent; of opcodes eight bits are compared; identifiers of entities are always sent as 0; the entity sent is that of the first description; after a second setup commands are refused. Proved: everything else, and that a refused command sends nothing."
  },
  {
   "property": "C151",
   "status": "proved",
   "theorems": [
    "Verif.Tcp.C151_messages_in_order",
    "Verif.Tcp.C151_nonvacuous"
   ],
   "note": "For all histories in which no call is undefined. The queue itself belongs to a library that is not in the repository and is taken as first in, first out, with arbitrary losses."
  },
  {
   "property": "C152",
   "status": "partial",
   "theorems": [
    "Verif.Usr.C152_vectors_violated",
    "Verif.Usr.C152_vectors_partial",
    "Verif.Usr.C152_nonvacuous"
   ],
   "note": "Full statement C152_full refuted: sums and differences of quaternions are overwritten with nil, so evaluation fails; and a sum of sums of vectors of dimension 62 is undefined, as the value array is moved while an operand in it is read. Proved: for everything but sums, differences and distances of quaternions, if the values to be written fit into the capacity of the array; also that the code outside operators and the values already there do not change. Numbers are compared as the words that hold them, for any arithmetic."
  },
  {
   "property": "C153",
   "status": "partial",
   "theorems": [
    "Verif.Usr.C153_quotient_violated",
    "Verif.Usr.C153_exact_partial",
    "Verif.Usr.C153_rounded_partial",
    "Verif.Usr.C153_nonvacuous"
   ],
   "note": "Full statement C153_full refuted: components are rounded to two decimals. Proved: exactly up to sign and the square of the length without rounding, for all quaternions; within 3/200 per component with any rounding that errs by at most 1/200, for unit q. The arithmetic is that of rational numbers: missing is single precision."
  },
  {
   "property": "C154",
   "status": "partial",
   "theorems": [
    "Verif.Law.C154_law_violated",
    "Verif.Law.C154_commands_partial",
    "Verif.Law.C154_instances_partial",
    "Verif.Law.C154_values_partial",
    "Verif.Law.C154_nonvacuous"
   ],
   "note": "Full statement C154_full refuted: the change in a microsecond is compared with the speed up to the tolerance, so a cause of value 0 explains a change of 0.5 in 100 ms; for instances of models an index is compared with a count, so a quotient among the arguments is missed; with a value as cause the pointers of vectors are taken for numbers, so that any change is explained as a product with 1. Proved: commands with values of all classes, soundness and completeness; instances of models and numbers, soundness, and completeness for differences; values and numbers, which law is found when, and that constants are right."
  },
  {
   "property": "C155",
   "status": "partial",
   "theorems": [
    "Verif.Subgoal.C155_subgoals_violated",
    "Verif.Subgoal.C155_core_partial",
    "Verif.Subgoal.C155_simulated_partial",
    "Verif.Subgoal.C155_actual_never",
    "Verif.Subgoal.C155_nonvacuous"
   ],
   "note": "Full statement C155_full refuted: goals acted upon become simulated ones and are never reported (the code for the report cannot be reached); a goal without a simulation is a null pointer that is followed; of a state not wanted every member is fought although one does not hold; predictions are compared with the confidence of the pattern before it is set, so they never count for patterns of confidence 1; expired overlays are used; the same thing at another time is left out. Proved: the members asked for are exactly the missing ones with their targets and simulations, for goals and knowledge that avoid these cases; simulated goals stay simulated; goals acted upon never do."
  },
  {
   "property": "C156",
   "status": "partial",
   "theorems": [
    "Verif.Icst.C156_instance_violated",
    "Verif.Icst.C156_core_partial",
    "Verif.Icst.C156_rest_partial",
    "Verif.Icst.C156_nonvacuous"
   ],
   "note": "Full statement C156_full refuted: the fact of the instance is of confidence 1 whatever its members; a prediction lives too long by the factor of the base period; a prediction loses the validities of what it was made from, unless it is in a simulation and the last input is a prediction; one in a simulation loses the predictions it rests on. Proved: kind, simulations, invalidation and groups for all inputs (C156_core_partial); life of facts, grounds of predictions, validities in simulations when the last input is a prediction, and saliency (C156_rest_partial)."
  },
  {
   "property": "C157",
   "status": "partial",
   "theorems": [
    "Verif.Promote.C157_assume_violated",
    "Verif.Promote.C157_core_partial",
    "Verif.Promote.C157_complete_partial",
    "Verif.Promote.C157_earlier_partial",
    "Verif.Promote.C157_nonvacuous"
   ],
   "note": "Full statement C157_full refuted: a fact is assumed against a prediction that came before the overlay had the fact (only predictions that withdrew something are remembered), and against one that is for longer (evidence is tested the wrong way round); a prediction that something is not elsewhere keeps it from being assumed to stay; an assumption made from a prediction does not have the validities of that prediction. Proved for all histories: form, the present prediction, one standing assumption for each input, withdrawal exactly when told of (C157_core_partial); what is assumed, if no |fact is predicted in the simulation (C157_complete_partial); not against a remembered prediction for no longer than the present one (C157_earlier_partial)."
  },
  {
   "property": "C158",
   "status": "partial",
   "theorems": [
    "Verif.Cores.C158_stop_violated",
    "Verif.Cores.C158_stop_partial",
    "Verif.Cores.C158_nearer_partial",
    "Verif.Cores.C158_prompt_partial",
    "Verif.Cores.C158_nonvacuous"
   ],
   "note": "Full statement C158_full refuted: a delegate counts itself only in its own thread, so one whose thread is slow is not waited for; it then uses the deleted semaphore, or waits for ever. Proved for all executions: stop never waits in vain, cores and delegates that have entered are over when it returns, at most one job more for each core, nothing deleted is used before stop returns (C158_stop_partial); the steps left to the cores only fall (C158_nearer_partial); everything, for executions in which all delegates have entered when stop takes the semaphore (C158_prompt_partial). Jobs are taken to end; threads of devices that push jobs are not modelled."
  },
  {
   "property": "C159",
   "status": "partial",
   "theorems": [
    "Verif.Timed.C159_jobs_violated",
    "Verif.Timed.C159_next_partial",
    "Verif.Timed.C159_punctual_partial",
    "Verif.Timed.C159_single_partial",
    "Verif.Timed.C159_early_partial",
    "Verif.Timed.C159_nonvacuous"
   ],
   "note": "Full statement C159_full refuted: a job put off in the loop of a time core gets a delegate with the time 0, which does it as soon as its timer fires, be it early; in a delegate the reference is not reset before a job is done again, so a job that gave a time once and then gives none is done over and over. Proved: the time a job gives is the one it is asked for next (C159_next_partial, all steps); everything, for jobs that always give a time or say they are done, with timers that are not early (C159_punctual_partial) or if popped before their time (C159_early_partial, any timers), and for jobs that never give a time (C159_single_partial, any timers). All jobs in the repository are of one of these kinds."
  },
  {
   "property": "C160",
   "status": "partial",
   "theorems": [
    "Verif.Tpl.C160_template_violated",
    "Verif.Tpl.C160_whole_partial",
    "Verif.Tpl.C160_plain_partial",
    "Verif.Tpl.C160_variables_partial",
    "Verif.Tpl.C160_nonvacuous"
   ],
   "note": "Full statement C160_full refuted: patch_tpl_code starts at the pattern rather than at its skeleton, so variables inside a structured template argument get pointers to other places of the instance (in the witness, to the program), and the guards of the pattern are compared with a word of the instance at the index in the low bits of the argument plus two, which for a number is outside the code. Proved: whenever the patching succeeds, each template argument as a whole stands for the argument given (C160_whole_partial); everything, for skeletons that are variables or have none inside, if the patching succeeds (C160_plain_partial); that it succeeds, for variables without guards whose arguments are structures (C160_variables_partial)."
  },
  {
   "property": "C161",
   "status": "partial",
   "theorems": [
    "Verif.Ins.C161_ins_violated",
    "Verif.Ins.C161_ins_partial",
    "Verif.Ins.C161_linear_partial",
    "Verif.Ins.C161_nonvacuous"
   ],
   "note": "Full statement C161_full refuted: a variable that occurs twice in a skeleton is not checked to stand for one value. Proved, for all programs, arguments and operands under the conditions of C147 and C148 (words of timestamps that do not look like pointers, arguments copied faithfully, an instance of at most 4096 cells): when an instance is made and that it is the one asked for (C161_ins_partial, with the fit of each argument as such; C161_linear_partial, everything, for skeletons whose variables occur once). Missing: the guards of the patterns (which ins does not evaluate), operands that are no objects."
  },
  {
   "property": "C162",
   "status": "partial",
   "theorems": [
    "Verif.Inp.C162_pattern_violated",
    "Verif.Inp.C162_tree_partial",
    "Verif.Inp.C162_nonvacuous"
   ],
   "note": "Full statement C162_full refuted: the place in the program by which a part of a referred object is reached is kept in eight bits, so that beyond the 256th word of the program a variable stands for a word of the program itself, or a null pointer is used; the words of a timestamp in a skeleton are taken for wildcards and pointers, which reads outside the code. Proved for all skeletons that are trees of structures, constants, variables and last tail wildcards, at any depth, and all inputs that fit, where references of the input are met within the first 256 words of the program and there are at most 256 inputs: C162_tree_partial. Missing: skeletons with timestamps, durations and strings (safe ones), in which a structure or a variable is shared, and constants that contain variables."
  },
  {
   "property": "C163",
   "status": "partial",
   "theorems": [
    "Verif.Eval.C163_value_violated",
    "Verif.Eval.C163_value_partial",
    "Verif.Eval.C163_nonvacuous"
   ],
   "note": "Full statement C163_full refuted: pointers to results have twelve bits, so that once the results of an overlay take 4096 words, a timestamp, duration or structure that is computed is taken for one of the first results. Proved for all expressions, with any sharing, from any state, as long as the results take at most 4096 words, for programs whose variables stand for members that are not chains of pointers and in which no pointer points into a timestamp, duration, string or chain: C163_value_partial. Missing: objects as operands, ins, red, fvw, mod and set as operators, expressions in the middle of chains of pointers."
  },
  {
   "property": "C164",
   "status": "partial",
   "theorems": [
    "Verif.Eval.C164_program_violated",
    "Verif.Eval.C164_program_partial",
    "Verif.Eval.C164_nonvacuous"
   ],
   "note": "Full statement C164_full refuted by the twelve bits of pointers to results (C163). Proved for the programs of C163 and as long as the results take at most 4096 words: C164_program_partial. Missing: what is missing in C163."
  },
  {
   "property": "C165",
   "status": "partial",
   "theorems": [
    "Verif.Eval.C165_pattern_violated",
    "Verif.Eval.C165_pattern_partial",
    "Verif.Eval.C165_nonvacuous"
   ],
   "note": "Full statement C165_full refuted: the set of guards is evaluated as a whole and it is the head of the set that is tested for being false, and in red nothing is tested; guards of patterns that are false let inputs through. Proved for the programs of C163: the guards let through exactly if all are evaluated, so exactly if they hold when none can be false: C165_pattern_partial. Missing: guards that can be false (a defect of the code), and what is missing in C163."
  },
  {
   "property": "C166",
   "status": "partial",
   "theorems": [
    "Verif.Keep.C166_red_violated",
    "Verif.Keep.C166_red_partial",
    "Verif.Keep.C166_nonvacuous"
   ],
   "note": "Full statement C166_full refuted: variables that stand for parts of objects that inputs refer to are copied as pointers relative to the code and then read relative to the values; of what a chain of pointers leads to only the first word is copied; the number of productions is kept in eight bits, so that 256 productions give an empty set. Proved for any number of productions below 256, from any state, while the values take at most 4096 words, for productions of structures, atoms, timestamps, durations, strings whose words look like atoms, results of operators, objects, arguments, parts of inputs, variables for such, and chains that lead to atoms: C166_red_partial. Missing: the cases above, mod and set."
  },
  {
   "property": "C167",
   "status": "partial",
   "theorems": [
    "Verif.Gev.C167_guards_violated",
    "Verif.Gev.C167_guards_partial",
    "Verif.Gev.C167_nonvacuous"
   ],
   "note": "Full statement C167_full refuted: a guard that uses a variable of a later guard makes the evaluation fail; assigning a variable or a truth value succeeds and binds nothing; a bound variable is overwritten; an assignment that cannot be evaluated is accepted when its variable is bound. Proved for guards in a usable order, each assigning, once, a variable that is not bound, a number, object or operator that yields a number, object, timestamp or duration: success if and only if the guards can be evaluated in that order, with that result; all guards hold of it; other variables are as before. Missing: the cases above."
  },
  {
   "property": "C168",
   "status": "partial",
   "theorems": [
    "Verif.Gev.C168_timings_violated",
    "Verif.Gev.C168_timings_partial",
    "Verif.Gev.C168_nonvacuous"
   ],
   "note": "Full statement C168_full refuted: timings that need a third assigned variable are not computed; when the operator for the end of the interval fails and the beginning can be computed, the second evaluation succeeds with the end unbound. Proved when each timing is assigned in at most one way by an operator that yields timestamps and fails in no such bindings, from the other timing and variables that guards do not assign, whichever is bound at first and whichever needs the other (or both, or itself). Missing: the cases above."
  },
  {
   "property": "C169",
   "status": "partial",
   "theorems": [
    "Verif.Extrema.C169_minmax_violated",
    "Verif.Extrema.C169_minmax_partial",
    "Verif.Extrema.C169_nonvacuous"
   ],
   "note": "Full statement C169_full refuted: with NaN, which differences of negative infinities give, the result depends on the order of the operands and is no bound. Proved for all numbers that are not NaN (infinities included), timestamps and durations, with associativity and absorption; values of different kinds fail. Missing: NaN. Zero has no sign in the model."
  },
  {
   "property": "C170",
   "status": "proved",
   "theorems": [
    "Verif.Cov.C170_injection",
    "Verif.Cov.C170_nonvacuous"
   ],
   "note": "C170_full proved for finite sets of groups and reentrant locks (the lock class is in a library outside the repository). Requests made on views of groups that have the object include, with mutual visibility, the view the object was injected with."
  },
  {
   "property": "C171",
   "status": "proved",
   "theorems": [
    "Verif.Cov.C171_update",
    "Verif.Cov.C171_nonvacuous"
   ],
   "note": "C171_full proved for finite sets of groups and reentrant locks."
  },
  {
   "property": "C172",
   "status": "partial",
   "theorems": [
    "Verif.Inless.C172_runs_violated",
    "Verif.Inless.C172_runs_partial",
    "Verif.Inless.C172_nonvacuous"
   ],
   "note": "C172_full is violated: a program that becomes inactive and active again within its time scope runs twice in each time scope from then on; a program that is to run once can run twice; a program can run after its deactivation; and it can stop for good though it is active. Proved: it holds when nothing comes between a check and a run, earlier jobs are gone at each activation and the group changes in updates of the view only; without conditions, a time scope has no more runs than there were activations, a controller invalidated while no thread is about to run it never runs again, and one that is not alive gets no jobs until it is activated."
  },
  {
   "property": "C173",
   "status": "partial",
   "theorems": [
    "Verif.Oper.C173_operators_violated",
    "Verif.Oper.C173_operators_partial",
    "Verif.Oper.C173_nonvacuous"
   ],
   "note": "C173_full is violated: functions of the executive go by the order of the declarations; a declared operator may have no function, and the null pointer is called; the library of the repository gives empty names the second time, which ends the program; without a library, a second initialisation makes functions their own overloads; a system class with the name of an operator makes its function an overload of another operator. Proved for sources that begin with the standard operators and declare no name twice, and libraries whose operators are declared, exist and are named once, and that give their names anew each time; for all sources and libraries, a successful initialisation means that the operators of the library are declared and have functions."
  },
  {
   "property": "C174",
   "status": "partial",
   "theorems": [
    "Verif.Meta.C174_metadata_violated",
    "Verif.Meta.C174_metadata_partial",
    "Verif.Meta.C174_nonvacuous"
   ],
   "note": "C174_full is violated: no buffer is read as metadata that has a class whose name does not begin with \"undefined\", nor as metadata with 65536 names of a kind; and, were classes read properly, operators would be read as the classes of the same number. Proved: writing changes get_size words only (all metadata); metadata without classes and of less than 65536 words is read back; with classes and without operators it would be, if classes had empty names before they are read."
  },
  {
   "property": "C175",
   "status": "partial",
   "theorems": [
    "Verif.Mix.C175_simulations_violated",
    "Verif.Mix.C175_simulations_partial",
    "Verif.Mix.C175_nonvacuous"
   ],
   "note": "C175_full is violated: a prediction in several simulations is not checked, so it is put together with one of another simulation; and an overlay that has taken one refuses every prediction in one simulation, even in one of its own. Proved: all of it when every prediction is in one simulation at most, for all matchings, patterns and sequences of inputs."
  },
  {
   "property": "C176",
   "status": "partial",
   "theorems": [
    "Verif.Marks.C176_markers_violated",
    "Verif.Marks.C176_markers_partial",
    "Verif.Marks.C176_nonvacuous"
   ],
   "note": "C176_full is violated: a notification injected into two groups (as mk.rdx is, into all notification or output groups) is put twice into the marker sets of what it refers to and removed once, so the address of a deleted object remains; likewise markers loaded in two groups; notifications of an image are never removed. Proved: all of it when markers are Objects, and are loaded or injected as notifications once and before they are invalidated; other injections are unrestricted."
  },
  {
   "property": "C177",
   "status": "partial",
   "theorems": [
    "Verif.Lay.C177_layout_violated",
    "Verif.Lay.C177_layout_partial",
    "Verif.Lay.C177_nonvacuous"
   ],
   "note": "C177_full is violated: the forms with a constant take the right-hand side for the left-hand side (get_reference(1) twice) and assign its times from themselves; of a command argument that is neither an object nor a number nothing is written and the model cannot be read; an object argument with references refers to the objects of the model once copied. Proved for all numbers of template arguments and all other forms: the code read from its first word is the model that is meant; the constant forms only where both sides have the same times, object arguments only without references."
  },
  {
   "property": "C178",
   "status": "partial",
   "theorems": [
    "Verif.Absi.C178_abstraction_violated",
    "Verif.Absi.C178_abstraction_partial",
    "Verif.Absi.C178_nonvacuous"
   ],
   "note": "C178_full is violated: the times of the first fact are in the bindings but not among the arguments, and the abstraction counts its variables without leaving them out, so that all arguments after them have the variable of another value; a time interval among the template arguments is one place and two variables. Proved for all: what is kept, the numbers of arguments, and that variables differ. Proved when the template arguments are the first variables: the template arguments; the exposed arguments before the times; all of it if the times are the last variables; and in general exactly when it fits."
  },
  {
   "property": "C179",
   "status": "partial",
   "theorems": [
    "Verif.Simout.C179_outcomes_violated",
    "Verif.Simout.C179_outcomes_partial",
    "Verif.Simout.C179_nonvacuous"
   ],
   "note": "C179_full is violated: models that are not at the top level make the prediction and leave it, so that no outcome of their goals and requirements is ever told; and an input that comes when a predicted evidence has turned out wrong is not looked at. Proved: monitors of models at the top level tell all outcomes they are shown and nothing else, unless a predicted evidence turns out wrong meanwhile; others tell nothing."
  },
  {
   "property": "C180",
   "status": "partial",
   "theorems": [
    "Verif.Ackg.C180_outcome_violated",
    "Verif.Ackg.C180_outcome_partial",
    "Verif.Ackg.C180_nonvacuous"
   ],
   "note": "C180_full is violated: a goal that something is absent, reached by a fact that excludes that thing, has no outcome if no prediction of such a fact comes true, two if two do, and both a failure and a success if one does after the time of the goal. Proved: goals that something is there have the outcome decided, once, in all histories; so have goals that something is absent unless they are reached by such a fact or a prediction of one comes true; with one prediction that comes true the success is told once."
  }
 ]
}