import Verif.Abduce.Lemmas
import Verif.Abduce.Model
import Verif.Abduce.Props
import Verif.Abduce.Spec
import Verif.Abduce.Wait
import Verif.Absi.Model
import Verif.Absi.Props
import Verif.Absi.Spec
import Verif.Abstract.Lemmas
import Verif.Abstract.Main
import Verif.Abstract.Model
import Verif.Abstract.Props
import Verif.Abstract.Spec
import Verif.Abstract.Walk
import Verif.Ackg.Model
import Verif.Ackg.Props
import Verif.Ackg.Spec
import Verif.Assume.Model
import Verif.Assume.Props
import Verif.Assume.Spec
import Verif.Atom.Float
import Verif.Atom.Lemmas
import Verif.Atom.Model
import Verif.Atom.Props
import Verif.Atom.Spec
import Verif.Bind.Closed
import Verif.Bind.Lemmas
import Verif.Bind.Model
import Verif.Bind.Props
import Verif.Bind.Spec
import Verif.BindMap.Model
import Verif.BindMap.Props
import Verif.CellList.Gc
import Verif.CellList.Lemmas
import Verif.CellList.Model
import Verif.CellList.Props
import Verif.Classes.Files
import Verif.Classes.Model
import Verif.Classes.Opcodes
import Verif.Classes.Props
import Verif.Classes.Run
import Verif.Classes.Sim
import Verif.Classes.Spec
import Verif.Commit.Lemmas
import Verif.Commit.Model
import Verif.Commit.Props
import Verif.Commit.Spec
import Verif.Compile.Core
import Verif.Compile.Leaves
import Verif.Compile.Lemmas
import Verif.Compile.Main
import Verif.Compile.Model
import Verif.Compile.Objects
import Verif.Compile.Props
import Verif.Compile.Spec
import Verif.Compile.Steps
import Verif.Compile.Struct
import Verif.Cores.Model
import Verif.Cores.Props
import Verif.Cores.Spec
import Verif.Counts.Model
import Verif.Counts.Props
import Verif.Cov.Model
import Verif.Cov.Props
import Verif.Cov.Spec
import Verif.Cst.Model
import Verif.Cst.Props
import Verif.Ctx.Copy
import Verif.Ctx.Lemmas
import Verif.Ctx.Model
import Verif.Ctx.Props
import Verif.Ctx.Spec
import Verif.Cycle.Given
import Verif.Cycle.Inv
import Verif.Cycle.Lemmas
import Verif.Cycle.Model
import Verif.Cycle.Props
import Verif.Cycle.Spec
import Verif.Decomp.Leaves
import Verif.Decomp.Lemmas
import Verif.Decomp.Main
import Verif.Decomp.Model
import Verif.Decomp.Objects
import Verif.Decomp.Props
import Verif.Decomp.Spec
import Verif.Drives.Model
import Verif.Drives.Props
import Verif.Drives.Spec
import Verif.Eval.Lemmas
import Verif.Eval.Main
import Verif.Eval.Model
import Verif.Eval.Props
import Verif.Eval.Spec
import Verif.Evidence.Model
import Verif.Evidence.Props
import Verif.EvidenceCache.Model
import Verif.EvidenceCache.Props
import Verif.Extract.Model
import Verif.Extract.Props
import Verif.Extrema.Model
import Verif.Extrema.Props
import Verif.F32.Model
import Verif.F32.Order
import Verif.Focus.Counts
import Verif.Focus.Lemmas
import Verif.Focus.Memory
import Verif.Focus.Model
import Verif.Focus.Props
import Verif.Focus.Spec
import Verif.Focus.Targets
import Verif.Focus.Watch
import Verif.Gev.Model
import Verif.Gev.Props
import Verif.Gev.Spec
import Verif.GroupViews.Model
import Verif.GroupViews.Props
import Verif.GuardScan.Model
import Verif.GuardScan.Props
import Verif.Guards.Layout
import Verif.Guards.Lemmas
import Verif.Guards.Model
import Verif.Guards.Props
import Verif.HasRef.Model
import Verif.HasRef.Props
import Verif.Icst.Model
import Verif.Icst.Props
import Verif.Icst.Spec
import Verif.Image.ClassLemmas
import Verif.Image.Lemmas
import Verif.Image.Model
import Verif.Image.Props
import Verif.Inless.Model
import Verif.Inless.Props
import Verif.Inless.Spec
import Verif.Inp.Model
import Verif.Inp.Props
import Verif.Inp.Spec
import Verif.InputPtr.Model
import Verif.InputPtr.Props
import Verif.Ins.Model
import Verif.Ins.Props
import Verif.Ins.Spec
import Verif.Instance.Lemmas
import Verif.Instance.Model
import Verif.Instance.Position
import Verif.Instance.Props
import Verif.Instance.Read
import Verif.Instance.Spec
import Verif.Invalidation.Model
import Verif.Invalidation.Props
import Verif.Keep.Lemmas
import Verif.Keep.Model
import Verif.Keep.Props
import Verif.Keep.Spec
import Verif.Labels.Lemmas
import Verif.Labels.Model
import Verif.Labels.Props
import Verif.Lapse.Cascade
import Verif.Lapse.Lemmas
import Verif.Lapse.Model
import Verif.Lapse.Props
import Verif.Lapse.Spec
import Verif.Law.Arg
import Verif.Law.Calc
import Verif.Law.Find
import Verif.Law.Model
import Verif.Law.Props
import Verif.Law.Spec
import Verif.Lay.Model
import Verif.Lay.Props
import Verif.Lay.Spec
import Verif.Learn.Lemmas
import Verif.Learn.Model
import Verif.Learn.Props
import Verif.Learn.Spec
import Verif.Lifetime.Model
import Verif.Lifetime.Props
import Verif.LoadTimes.Lemmas
import Verif.LoadTimes.Model
import Verif.LoadTimes.Props
import Verif.Macro.Expand
import Verif.Macro.Model
import Verif.Macro.Process
import Verif.Macro.Props
import Verif.Marks.Model
import Verif.Marks.Props
import Verif.Marks.Spec
import Verif.Match.Constants
import Verif.Match.Model
import Verif.Match.Props
import Verif.Meta.Model
import Verif.Meta.Props
import Verif.Meta.Spec
import Verif.Mix.Model
import Verif.Mix.Props
import Verif.Mix.Spec
import Verif.ModSet.Model
import Verif.ModSet.Props
import Verif.ModelBase.Model
import Verif.ModelBase.Props
import Verif.Monitors.Model
import Verif.Monitors.Props
import Verif.Observe.Model
import Verif.Observe.Props
import Verif.Observe.Spec
import Verif.Oper.Model
import Verif.Oper.Props
import Verif.Oper.Spec
import Verif.Ops.Model
import Verif.Ops.Props
import Verif.Overlay.Model
import Verif.Overlay.Props
import Verif.Pack.Lemmas
import Verif.Pack.Model
import Verif.Pack.Props
import Verif.Perf.Model
import Verif.Perf.Props
import Verif.Pgm.Fires
import Verif.Pgm.Model
import Verif.Pgm.Props
import Verif.Predict.Chained
import Verif.Predict.Lemmas
import Verif.Predict.Model
import Verif.Predict.Props
import Verif.Predict.Spec
import Verif.Prods.Lemmas
import Verif.Prods.Model
import Verif.Prods.Props
import Verif.Prods.Spec
import Verif.Promote.Model
import Verif.Promote.Props
import Verif.Promote.Spec
import Verif.Propagation.Model
import Verif.Propagation.Props
import Verif.Rating.Activation
import Verif.Rating.Model
import Verif.Rating.Props
import Verif.Red.Model
import Verif.Red.Props
import Verif.Requirements.Model
import Verif.Requirements.Props
import Verif.Sched.Lemmas
import Verif.Sched.Model
import Verif.Sched.Props
import Verif.Screen.Model
import Verif.Screen.Props
import Verif.Screen.Spec
import Verif.Screen.Table
import Verif.SimHorizon.Model
import Verif.SimHorizon.Props
import Verif.Simout.Model
import Verif.Simout.Props
import Verif.Simout.Spec
import Verif.Sims.Model
import Verif.Sims.Props
import Verif.Snapshot.Model
import Verif.Snapshot.Props
import Verif.Source.Ends
import Verif.Source.Lemmas
import Verif.Source.Model
import Verif.Source.Props
import Verif.Source.Round
import Verif.Source.Spec
import Verif.Store.Model
import Verif.Store.Props
import Verif.Subgoal.Model
import Verif.Subgoal.Props
import Verif.Subgoal.Spec
import Verif.Tcp.Data
import Verif.Tcp.Lemmas
import Verif.Tcp.Model
import Verif.Tcp.Order
import Verif.Tcp.Props
import Verif.Tcp.Spec
import Verif.TestWorld.Lemmas
import Verif.TestWorld.Model
import Verif.TestWorld.Props
import Verif.TestWorld.Spec
import Verif.TimeText.Model
import Verif.TimeText.Props
import Verif.Timed.Model
import Verif.Timed.Props
import Verif.Timed.Spec
import Verif.Timings.Model
import Verif.Timings.Props
import Verif.Tpl.Model
import Verif.Tpl.Props
import Verif.Tpl.Spec
import Verif.Typed.Lemmas
import Verif.Typed.Main
import Verif.Typed.Objects
import Verif.Typed.Props
import Verif.Typed.Sets
import Verif.Typed.Spec
import Verif.Typed.Steps
import Verif.Unify.Lemmas
import Verif.Unify.Main
import Verif.Unify.Model
import Verif.Unify.Props
import Verif.Unify.Spec
import Verif.Unify.Walk
import Verif.Upr.Model
import Verif.Upr.Props
import Verif.Usr.Apply
import Verif.Usr.Eval
import Verif.Usr.Lemmas
import Verif.Usr.Model
import Verif.Usr.Props
import Verif.Usr.Quat
import Verif.Usr.Scale
import Verif.Usr.Spec
import Verif.Values.Lemmas
import Verif.Values.Model
import Verif.Values.Props
import Verif.Values.Refs
import Verif.ViewCtl.Model
import Verif.ViewCtl.Props
import Verif.Words.Lemmas
import Verif.Words.Model
import Verif.Words.Props
/-! The axioms each property theorem rests on, printed by the build (propext, Classical.choice
and Quot.sound at most). -/
#print axioms Verif.Atom.C01_stored_fields_survive
#print axioms Verif.Atom.C01_fitting_value_unchanged
#print axioms Verif.Atom.C01_string_blocks
#print axioms Verif.Atom.C01_time_words
#print axioms Verif.Atom.C02_no_collision
#print axioms Verif.Atom.C02_injective
#print axioms Verif.Atom.C02_number_iff
#print axioms Verif.Atom.C02_number_words
#print axioms Verif.Atom.C02_structure_iff
#print axioms Verif.Atom.C02_node_words
#print axioms Verif.Atom.C03_precision
#print axioms Verif.Atom.C03_relative_error
#print axioms Verif.Atom.C03_idempotent
#print axioms Verif.Atom.C03_infinities
#print axioms Verif.Atom.C03_zero
#print axioms Verif.Atom.C03_nan
#print axioms Verif.Atom.C03_monotone
#print axioms Verif.Atom.C04_undefined_reads_as_nil_violated
#print axioms Verif.Atom.C04_undefined_reads_as_nil_partial
#print axioms Verif.Atom.C05_node_id_violated
#print axioms Verif.Atom.C05_node_id_partial
#print axioms Verif.Words.C06_timestamp_struct
#print axioms Verif.Words.C06_timestamp_indirect
#print axioms Verif.Words.C06_duration_indirect
#print axioms Verif.Words.C06_duration_struct_violated
#print axioms Verif.Words.C06_duration_struct_partial
#print axioms Verif.Words.C07_string_round_trip_violated
#print axioms Verif.Words.C07_string_round_trip_partial
#print axioms Verif.CellList.C08_list_refines_sequence
#print axioms Verif.CellList.C08_histories
#print axioms Verif.CellList.C09_push_back_location
#print axioms Verif.CellList.C09_push_front_location_violated
#print axioms Verif.CellList.C09_push_front_location_partial
#print axioms Verif.CellList.C10_time_buffer_violated
#print axioms Verif.CellList.C10_time_buffer_partial
#print axioms Verif.Image.C11_view_record
#print axioms Verif.Image.C11_object_record
#print axioms Verif.Image.C11_concatenation
#print axioms Verif.Image.C12_image_round_trip_violated
#print axioms Verif.Image.C12_image_round_trip_partial
#print axioms Verif.Image.C59_class_record_violated
#print axioms Verif.Image.C59_class_record_partial
#print axioms Verif.Image.C60_object_map_violated
#print axioms Verif.Image.C60_object_map_partial
#print axioms Verif.Timings.C13_narrowing_exact
#print axioms Verif.Timings.C13_instant
#print axioms Verif.Timings.C13_not_a_time
#print axioms Verif.Timings.C14_order_independent_violated
#print axioms Verif.Timings.C14_collection
#print axioms Verif.Timings.C14_order_independent_partial
#print axioms Verif.BindMap.C15_unbound_count_violated
#print axioms Verif.BindMap.C15_unbound_count_partial
#print axioms Verif.Match.C19_exact
#print axioms Verif.Match.C19_verdict_unique
#print axioms Verif.Match.C19_symmetric
#print axioms Verif.Match.C19_reflexive
#print axioms Verif.Match.C19_strict_is_stronger
#print axioms Verif.Match.C19_strict_lines_up
#print axioms Verif.Match.C19_wildcards_ignored
#print axioms Verif.Match.C19_kinds
#print axioms Verif.Match.C61_constants_violated
#print axioms Verif.Match.C61_constants_partial
#print axioms Verif.Evidence.C16_evidence_exact
#print axioms Verif.Evidence.C17_timeless_violated
#print axioms Verif.Evidence.C17_timeless_partial
#print axioms Verif.Evidence.C18_composite_counter_evidence_violated
#print axioms Verif.Evidence.C18_composite_counter_evidence_partial
#print axioms Verif.Evidence.C20_absentee
#print axioms Verif.Evidence.C20_flip
#print axioms Verif.ViewCtl.C21_bounds
#print axioms Verif.ViewCtl.C21_group_thresholds
#print axioms Verif.ViewCtl.C21_mean
#print axioms Verif.ViewCtl.C21_single_set
#print axioms Verif.ViewCtl.C22_resilience_violated
#print axioms Verif.ViewCtl.C22_resilience_partial
#print axioms Verif.ViewCtl.C22_invalidated
#print axioms Verif.ViewCtl.C23_notifications_violated
#print axioms Verif.ViewCtl.C23_notifications_partial
#print axioms Verif.ViewCtl.C24_statistics_violated
#print axioms Verif.ViewCtl.C24_statistics_partial
#print axioms Verif.Upr.C25_grid
#print axioms Verif.Upr.C25_chain
#print axioms Verif.Upr.C25_no_period
#print axioms Verif.Upr.C25_before_reference
#print axioms Verif.Propagation.C26_propagation_violated
#print axioms Verif.Propagation.C26_propagation_partial
#print axioms Verif.ViewCtl.C62_copied_view_violated
#print axioms Verif.ViewCtl.C62_copied_view_partial
#print axioms Verif.ViewCtl.C63_propagated_change_violated
#print axioms Verif.ViewCtl.C63_propagated_change_partial
#print axioms Verif.Sched.C27_order
#print axioms Verif.Sched.C27_on_time
#print axioms Verif.Sched.C28_clock
#print axioms Verif.Sched.C28_advances
#print axioms Verif.Sched.C29_time_jobs
#print axioms Verif.Sched.C29_reduction_jobs
#print axioms Verif.Store.C30_identifiers_violated
#print axioms Verif.Store.C30_injection_binds_once
#print axioms Verif.Store.C30_identifiers_partial
#print axioms Verif.Store.C31_injection_violated
#print axioms Verif.Store.C31_never_early
#print axioms Verif.Store.C31_submitted
#print axioms Verif.Store.C31_submitted_async
#print axioms Verif.Store.C31_handed_over
#print axioms Verif.Store.C31_delayed_once
#print axioms Verif.Store.C31_injection_partial
#print axioms Verif.Store.C64_store_violated
#print axioms Verif.Store.C64_store_partial
#print axioms Verif.Perf.C32_window_average_violated
#print axioms Verif.Perf.C32_window_average_partial
#print axioms Verif.Invalidation.C33_exact
#print axioms Verif.Invalidation.C33_permanent
#print axioms Verif.Invalidation.C33_idempotent
#print axioms Verif.Invalidation.C33_second_time
#print axioms Verif.Sims.C34_simulations_violated
#print axioms Verif.Sims.C34_simulations_partial
#print axioms Verif.Sims.C35_goal_targets_violated
#print axioms Verif.Sims.C35_refused_iff
#print axioms Verif.Sims.C35_goal_targets_partial
#print axioms Verif.ModelBase.C36_apart
#print axioms Verif.ModelBase.C36_known
#print axioms Verif.ModelBase.C36_registered
#print axioms Verif.ModelBase.C36_refused
#print axioms Verif.ModelBase.C36_refused_only_failed
#print axioms Verif.ModelBase.C36_accepted_again
#print axioms Verif.ModelBase.C37_pair_violated
#print axioms Verif.ModelBase.C37_pair_partial
#print axioms Verif.ModelBase.C37_refused
#print axioms Verif.Pack.C38_packing_violated
#print axioms Verif.Pack.C38_packing_partial
#print axioms Verif.Pack.C38_patterns_survive
#print axioms Verif.Pack.C38_references
#print axioms Verif.Pack.C38_packs
#print axioms Verif.Pack.C38_packing_nonvacuous
#print axioms Verif.Overlay.C39_rollback_violated
#print axioms Verif.Overlay.C39_rollback_partial
#print axioms Verif.Overlay.C39_rollback_first
#print axioms Verif.Overlay.C39_unpatch
#print axioms Verif.Overlay.C39_offspring_violated
#print axioms Verif.Overlay.C39_offspring_partial
#print axioms Verif.Overlay.C39_rollback_nonvacuous
#print axioms Verif.Red.C40_reduction_violated
#print axioms Verif.Red.C40_reduction_partial
#print axioms Verif.Red.C40_characterised
#print axioms Verif.Red.C40_sound
#print axioms Verif.Red.C40_answer
#print axioms Verif.Red.C40_reduction_nonvacuous
#print axioms Verif.Ops.C53_infinities_violated
#print axioms Verif.Ops.C53_add_sub
#print axioms Verif.Ops.C53_sub_add
#print axioms Verif.Ops.C53_difference
#print axioms Verif.Ops.C53_durations
#print axioms Verif.Ops.C53_order
#print axioms Verif.Ops.C53_order_trans
#print axioms Verif.Ops.C53_incomparable
#print axioms Verif.Ops.C53_add_ieee
#print axioms Verif.Ops.C53_sub_ieee
#print axioms Verif.Ops.C53_mul_ieee
#print axioms Verif.Ops.C53_div_ieee
#print axioms Verif.Ops.C53_nonvacuous
#print axioms Verif.Ops.C53_numbers
#print axioms Verif.Ops.C53_scaling
#print axioms Verif.Guards.C41_backward_violated
#print axioms Verif.Guards.C41_single_precision_violated
#print axioms Verif.Guards.C41_forward
#print axioms Verif.Guards.C41_backward_partial
#print axioms Verif.Guards.C41_nonvacuous
#print axioms Verif.Guards.C41_unbound
#print axioms Verif.GuardScan.C42_scan_violated
#print axioms Verif.GuardScan.C42_yes_sound
#print axioms Verif.GuardScan.C42_scan_partial
#print axioms Verif.GuardScan.C42_written_order
#print axioms Verif.GuardScan.C42_nonvacuous
#print axioms Verif.Requirements.C44_fwd_violated
#print axioms Verif.Requirements.C43_fwd_partial
#print axioms Verif.Requirements.C43_bwd
#print axioms Verif.Requirements.C43_simulated_fwd
#print axioms Verif.Requirements.C43_simulated_bwd
#print axioms Verif.Requirements.C43_wr_enabled_violated
#print axioms Verif.Requirements.C43_nonvacuous
#print axioms Verif.Requirements.C44_fwd_partial
#print axioms Verif.Requirements.C44_others
#print axioms Verif.Requirements.C44_store
#print axioms Verif.Rating.C45_phase_out_violated
#print axioms Verif.Rating.C45_rate_partial
#print axioms Verif.Rating.C45_bounds
#print axioms Verif.Rating.C45_monotone
#print axioms Verif.Rating.C45_failure_single
#print axioms Verif.Rating.C45_success_single_partial
#print axioms Verif.Rating.C45_deletion
#print axioms Verif.Rating.C45_single_violated
#print axioms Verif.Rating.C45_nonvacuous
#print axioms Verif.Counts.C46_counts_violated
#print axioms Verif.Counts.C46_counts_partial
#print axioms Verif.Counts.C46_nonvacuous
#print axioms Verif.EvidenceCache.C47_contents
#print axioms Verif.EvidenceCache.C47_checks
#print axioms Verif.EvidenceCache.C47_nonvacuous
#print axioms Verif.Monitors.C48_outcomes_partial
#print axioms Verif.Monitors.C48_outcomes_violated
#print axioms Verif.Monitors.C48_each_clause_violated
#print axioms Verif.Monitors.C48_second_chance_is_dead
#print axioms Verif.Monitors.C48_nonvacuous
#print axioms Verif.Monitors.C49_outcomes_partial
#print axioms Verif.Monitors.C49_predictions
#print axioms Verif.Monitors.C49_outcomes_violated
#print axioms Verif.Monitors.C49_nonvacuous
#print axioms Verif.Cst.C50_combinations_violated
#print axioms Verif.Cst.C50_combinations_partial
#print axioms Verif.Cst.C50_nonvacuous
#print axioms Verif.Cst.C51_sub_models_violated
#print axioms Verif.Cst.C51_first_pattern_partial
#print axioms Verif.Cst.C51_nonvacuous
#print axioms Verif.Cst.C65_guards_violated
#print axioms Verif.SimHorizon.C52_horizon_violated
#print axioms Verif.SimHorizon.C52_horizon_partial
#print axioms Verif.SimHorizon.C52_nonvacuous
#print axioms Verif.SimHorizon.C66_depth_violated
#print axioms Verif.SimHorizon.C66_depth_partial
#print axioms Verif.SimHorizon.C66_nonvacuous
#print axioms Verif.Pgm.C54_matches_violated
#print axioms Verif.Pgm.C54_matches_partial
#print axioms Verif.Pgm.C54_nonvacuous
#print axioms Verif.Pgm.C67_anti_violated
#print axioms Verif.Pgm.C67_anti_partial
#print axioms Verif.Pgm.C67_nonvacuous
#print axioms Verif.InputPtr.C58_pointers_violated
#print axioms Verif.InputPtr.C58_pointers_partial
#print axioms Verif.InputPtr.C58_nonvacuous
#print axioms Verif.GroupViews.C55_visits
#print axioms Verif.GroupViews.C55_nonvacuous
#print axioms Verif.TimeText.C56_text_violated
#print axioms Verif.TimeText.C56_duration
#print axioms Verif.TimeText.C56_timestamp
#print axioms Verif.TimeText.C56_apart
#print axioms Verif.TimeText.C56_text_partial
#print axioms Verif.TimeText.C56_nonvacuous
#print axioms Verif.HasRef.C57_scan_violated
#print axioms Verif.HasRef.C57_scan_partial
#print axioms Verif.HasRef.C57_nonvacuous
#print axioms Verif.GroupViews.C68_filed_violated
#print axioms Verif.GroupViews.C68_filed_partial
#print axioms Verif.GroupViews.C68_nonvacuous
#print axioms Verif.LoadTimes.C69_times_violated
#print axioms Verif.LoadTimes.C69_times_partial
#print axioms Verif.LoadTimes.C69_nonvacuous
#print axioms Verif.Lifetime.C70_lifetime_violated
#print axioms Verif.Lifetime.C70_lifetime_partial
#print axioms Verif.Lifetime.C70_no_time
#print axioms Verif.Lifetime.C70_nonvacuous
#print axioms Verif.Lifetime.C71_focus_violated
#print axioms Verif.Lifetime.C71_focus_partial
#print axioms Verif.Lifetime.C71_nonvacuous
#print axioms Verif.Rating.C72_one_group_violated
#print axioms Verif.Rating.C72_one_group_partial
#print axioms Verif.Rating.C72_follows
#print axioms Verif.Rating.C72_nonvacuous
#print axioms Verif.Pgm.C73_fires
#print axioms Verif.Pgm.C73_nonvacuous
#print axioms Verif.Snapshot.C74_snapshot_violated
#print axioms Verif.Snapshot.C74_snapshot_partial
#print axioms Verif.Snapshot.C74_nonvacuous
#print axioms Verif.Snapshot.C75_image
#print axioms Verif.Snapshot.C75_nonvacuous
#print axioms Verif.Values.C76_copies_violated
#print axioms Verif.Values.C76_copies_partial
#print axioms Verif.Values.C76_carried_partial
#print axioms Verif.Values.C76_instants
#print axioms Verif.Values.C76_nonvacuous
#print axioms Verif.Instance.C77_instance_violated
#print axioms Verif.Instance.C77_instance_partial
#print axioms Verif.Instance.C77_nonvacuous
#print axioms Verif.Bind.C78_binds
#print axioms Verif.Bind.C78_complete
#print axioms Verif.Bind.C78_needs
#print axioms Verif.Bind.C78_nonvacuous
#print axioms Verif.Instance.C79_exposed
#print axioms Verif.Instance.C79_ordered
#print axioms Verif.Instance.C79_position
#print axioms Verif.Instance.C79_nonvacuous
#print axioms Verif.Values.C80_references_violated
#print axioms Verif.Values.C80_references_partial
#print axioms Verif.Values.C80_nonvacuous
#print axioms Verif.Unify.C81_unified_violated
#print axioms Verif.Unify.C81_unified_partial
#print axioms Verif.Unify.C81_nonvacuous
#print axioms Verif.Abstract.C82_one_variable_violated
#print axioms Verif.Abstract.C82_abstracted_partial
#print axioms Verif.Abstract.C82_in_step
#print axioms Verif.Abstract.C82_nonvacuous
#print axioms Verif.Extract.C83_wrong_component_violated
#print axioms Verif.Extract.C83_assembled_partial
#print axioms Verif.Extract.C83_nonvacuous
#print axioms Verif.Extract.C84_other_order_violated
#print axioms Verif.Extract.C84_right_pattern_partial
#print axioms Verif.Extract.C84_all_partial
#print axioms Verif.Extract.C84_found
#print axioms Verif.Extract.C84_nonvacuous
#print axioms Verif.Source.C85_read_back_violated
#print axioms Verif.Source.C85_read_back_partial
#print axioms Verif.Source.C85_injective_partial
#print axioms Verif.Source.C85_nonvacuous
#print axioms Verif.Source.C86_ends_violated
#print axioms Verif.Source.C86_ends_partial
#print axioms Verif.Source.C86_lines_partial
#print axioms Verif.Source.C86_nonvacuous
#print axioms Verif.Macro.C87_substituted_violated
#print axioms Verif.Macro.C87_substituted_partial
#print axioms Verif.Macro.C87_refused
#print axioms Verif.Macro.C87_renamed
#print axioms Verif.Macro.C87_nonvacuous
#print axioms Verif.Macro.C88_conditions_violated
#print axioms Verif.Macro.C88_expanded_partial
#print axioms Verif.Macro.C88_no_use_partial
#print axioms Verif.Macro.C88_order
#print axioms Verif.Macro.C88_nonvacuous
#print axioms Verif.Classes.C89_opcodes_violated
#print axioms Verif.Classes.C89_too_many
#print axioms Verif.Classes.C89_opcodes_partial
#print axioms Verif.Classes.C89_nonvacuous
#print axioms Verif.Classes.C90_definitions_violated
#print axioms Verif.Classes.C90_definitions_partial
#print axioms Verif.Classes.C90_nonvacuous
#print axioms Verif.Compile.C91_compiled_violated
#print axioms Verif.Compile.C91_compiled_partial
#print axioms Verif.Compile.C91_nonvacuous
#print axioms Verif.Typed.C92_typed_violated
#print axioms Verif.Typed.C92_typed_partial
#print axioms Verif.Typed.C92_nonvacuous
#print axioms Verif.Labels.C93_labels_violated
#print axioms Verif.Labels.C93_labels_partial
#print axioms Verif.Labels.C93_nonvacuous
#print axioms Verif.Labels.C94_ignored_violated
#print axioms Verif.Labels.C94_ignored_partial
#print axioms Verif.Labels.C94_nonvacuous
#print axioms Verif.Decomp.C95_decompiled_violated
#print axioms Verif.Decomp.C95_decompiled_partial
#print axioms Verif.Decomp.C95_compiled_partial
#print axioms Verif.Decomp.C95_nonvacuous
#print axioms Verif.Cycle.C96_requests_violated
#print axioms Verif.Cycle.C96_requests_partial
#print axioms Verif.Cycle.C96_nonvacuous
#print axioms Verif.Cycle.C97_activation_violated
#print axioms Verif.Cycle.C97_activation_partial
#print axioms Verif.Cycle.C97_nonvacuous
#print axioms Verif.Cycle.C98_viewing_violated
#print axioms Verif.Cycle.C98_viewing_partial
#print axioms Verif.Cycle.C98_nonvacuous
#print axioms Verif.Cycle.C99_inputs_violated
#print axioms Verif.Cycle.C99_inputs_partial
#print axioms Verif.Cycle.C99_nonvacuous
#print axioms Verif.Cycle.C100_latecomers_violated
#print axioms Verif.Cycle.C100_latecomers_partial
#print axioms Verif.Cycle.C100_nonvacuous
#print axioms Verif.Cycle.C101_signals_violated
#print axioms Verif.Cycle.C101_signals_partial
#print axioms Verif.Cycle.C101_nonvacuous
#print axioms Verif.Observe.C102_device_facts_violated
#print axioms Verif.Observe.C102_device_facts_partial
#print axioms Verif.Observe.C102_nonvacuous
#print axioms Verif.Observe.C103_efferent_copy_violated
#print axioms Verif.Observe.C103_efferent_copy_partial
#print axioms Verif.Observe.C103_nonvacuous
#print axioms Verif.TestWorld.C104_answers_violated
#print axioms Verif.TestWorld.C104_answers_partial
#print axioms Verif.TestWorld.C104_nonvacuous
#print axioms Verif.TestWorld.C105_hand_violated
#print axioms Verif.TestWorld.C105_hand_partial
#print axioms Verif.TestWorld.C105_nonvacuous
#print axioms Verif.TestWorld.C106_injected_violated
#print axioms Verif.TestWorld.C106_injected_partial
#print axioms Verif.TestWorld.C106_nonvacuous
#print axioms Verif.Screen.C107_eye_violated
#print axioms Verif.Screen.C107_eye_partial
#print axioms Verif.Screen.C107_nonvacuous
#print axioms Verif.Screen.C108_fovea_pattern
#print axioms Verif.Screen.C108_nonvacuous
#print axioms Verif.Focus.C109_focus_violated
#print axioms Verif.Focus.C109_focus_partial
#print axioms Verif.Focus.C109_nonvacuous
#print axioms Verif.Focus.C109_remembers
#print axioms Verif.Focus.C109_recalled
#print axioms Verif.Focus.C109_recalled_nonvacuous
#print axioms Verif.Focus.C110_once_violated
#print axioms Verif.Focus.C110_once_partial
#print axioms Verif.Focus.C110_nonvacuous
#print axioms Verif.Focus.C111_targets
#print axioms Verif.Focus.C111_nonvacuous
#print axioms Verif.Focus.C112_watch
#print axioms Verif.Focus.C112_once
#print axioms Verif.Focus.C112_setup
#print axioms Verif.Focus.C112_nonvacuous
#print axioms Verif.Predict.C113_predictions_violated
#print axioms Verif.Predict.C113_predictions_partial
#print axioms Verif.Predict.C113_nonvacuous
#print axioms Verif.Predict.C113_chained
#print axioms Verif.Predict.C113_chained_nonvacuous
#print axioms Verif.Predict.C114_followed_violated
#print axioms Verif.Predict.C114_followed_partial
#print axioms Verif.Predict.C114_nonvacuous
#print axioms Verif.Predict.C115_instance_violated
#print axioms Verif.Predict.C115_instance_partial
#print axioms Verif.Predict.C115_nonvacuous
#print axioms Verif.Predict.C116_requirements_violated
#print axioms Verif.Predict.C116_requirements_partial
#print axioms Verif.Predict.C116_kept
#print axioms Verif.Predict.C116_nonvacuous
#print axioms Verif.Predict.C117_defeat_violated
#print axioms Verif.Predict.C117_defeat_partial
#print axioms Verif.Predict.C117_nonvacuous
#print axioms Verif.Predict.C118_secondary_violated
#print axioms Verif.Predict.C118_secondary_partial
#print axioms Verif.Predict.C118_nonvacuous
#print axioms Verif.Abduce.C119_pursued
#print axioms Verif.Abduce.C119_nonvacuous
#print axioms Verif.Abduce.C120_life_violated
#print axioms Verif.Abduce.C120_life_partial
#print axioms Verif.Abduce.C120_nonvacuous
#print axioms Verif.Abduce.C121_simulated_partial
#print axioms Verif.Abduce.C121_simulated_violated
#print axioms Verif.Abduce.agree_of_model
#print axioms Verif.Abduce.C121_nonvacuous
#print axioms Verif.Abduce.C122_waiting_partial
#print axioms Verif.Abduce.C122_waiting_violated
#print axioms Verif.Abduce.C122_nonvacuous
#print axioms Verif.Abduce.C123_signalled_partial
#print axioms Verif.Abduce.C123_signalled_violated
#print axioms Verif.Abduce.C123_nonvacuous
#print axioms Verif.Commit.C124_commit_violated
#print axioms Verif.Commit.C124_commit_partial
#print axioms Verif.Commit.C124_nonvacuous
#print axioms Verif.Commit.C125_commitment_violated
#print axioms Verif.Commit.C125_commitment_partial
#print axioms Verif.Commit.C125_acted_upon
#print axioms Verif.Commit.C125_nonvacuous
#print axioms Verif.Commit.C126_damage_violated
#print axioms Verif.Commit.C126_damage_partial
#print axioms Verif.Commit.C126_nonvacuous
#print axioms Verif.Drives.C127_drives_violated
#print axioms Verif.Drives.C127_drives_partial
#print axioms Verif.Drives.C127_nonvacuous
#print axioms Verif.Drives.C128_told_violated
#print axioms Verif.Drives.C128_told_partial
#print axioms Verif.Drives.C128_nonvacuous
#print axioms Verif.Drives.C129_outcomes_violated
#print axioms Verif.Drives.C129_outcomes_partial
#print axioms Verif.Drives.C129_nonvacuous
#print axioms Verif.Assume.C130_assumed
#print axioms Verif.Assume.C130_nonvacuous
#print axioms Verif.Assume.C131_own_violated
#print axioms Verif.Assume.C131_own_partial
#print axioms Verif.Assume.C131_nonvacuous
#print axioms Verif.Assume.C132_rating_violated
#print axioms Verif.Assume.C132_rating_partial
#print axioms Verif.Assume.C132_nonvacuous
#print axioms Verif.Learn.C133_causes_violated
#print axioms Verif.Learn.C133_causes_partial
#print axioms Verif.Learn.C133_nonvacuous
#print axioms Verif.Learn.C134_reasons_violated
#print axioms Verif.Learn.C134_crowd
#print axioms Verif.Learn.C134_reasons_partial
#print axioms Verif.Learn.C134_nonvacuous
#print axioms Verif.Learn.C135_reasons_violated
#print axioms Verif.Learn.C135_reasons_partial
#print axioms Verif.Learn.C135_nonvacuous
#print axioms Verif.Learn.C136_news_violated
#print axioms Verif.Learn.C136_news_partial
#print axioms Verif.Learn.C136_nonvacuous
#print axioms Verif.Lapse.C137_sleep_violated
#print axioms Verif.Lapse.C137_lost
#print axioms Verif.Lapse.C137_sleep_partial
#print axioms Verif.Lapse.C137_nonvacuous
#print axioms Verif.Lapse.C138_idle_violated
#print axioms Verif.Lapse.C138_forgotten
#print axioms Verif.Lapse.C138_idle_partial
#print axioms Verif.Lapse.C138_forgets
#print axioms Verif.Lapse.C138_nonvacuous
#print axioms Verif.Lapse.C139_gone_violated
#print axioms Verif.Lapse.C139_gone_partial
#print axioms Verif.Lapse.C139_unknown
#print axioms Verif.Lapse.C139_nonvacuous
#print axioms Verif.Lapse.C140_cascade_violated
#print axioms Verif.Lapse.C140_cascade_partial
#print axioms Verif.Lapse.C140_settles
#print axioms Verif.Lapse.C140_nonvacuous
#print axioms Verif.Prods.C141_all_violated
#print axioms Verif.Prods.C141_all_partial
#print axioms Verif.Prods.C141_prefix
#print axioms Verif.Prods.C141_nonvacuous
#print axioms Verif.Prods.C142_notes_violated
#print axioms Verif.Prods.C142_notes_partial
#print axioms Verif.Prods.C142_nonvacuous
#print axioms Verif.Prods.C143_facts
#print axioms Verif.Prods.C143_tolerance
#print axioms Verif.Prods.C143_nonvacuous
#print axioms Verif.ModSet.C144_modset_violated
#print axioms Verif.ModSet.C144_modset_partial
#print axioms Verif.ModSet.C144_views
#print axioms Verif.ModSet.C144_nonvacuous
#print axioms Verif.ModSet.C145_fvw_violated
#print axioms Verif.ModSet.C145_fvw_partial
#print axioms Verif.ModSet.C145_nonvacuous
#print axioms Verif.Ctx.C146_equal_violated
#print axioms Verif.Ctx.C146_not_transitive
#print axioms Verif.Ctx.C146_equal_partial
#print axioms Verif.Ctx.C146_nonvacuous
#print axioms Verif.Ctx.C147_match_violated
#print axioms Verif.Ctx.C147_match_partial
#print axioms Verif.Ctx.C147_nonvacuous
#print axioms Verif.Ctx.C148_build_violated
#print axioms Verif.Ctx.C148_build_partial
#print axioms Verif.Ctx.C148_nonvacuous
#print axioms Verif.Tcp.C149_data_become_facts_violated
#print axioms Verif.Tcp.C149_class_violated
#print axioms Verif.Tcp.C149_setup_violated
#print axioms Verif.Tcp.C149_null_violated
#print axioms Verif.Tcp.C149_data_become_facts_partial
#print axioms Verif.Tcp.C149_nonvacuous
#print axioms Verif.Tcp.C150_commands_sent_violated
#print axioms Verif.Tcp.C150_opcode_violated
#print axioms Verif.Tcp.C150_id_violated
#print axioms Verif.Tcp.C150_entity_violated
#print axioms Verif.Tcp.C150_setup_violated
#print axioms Verif.Tcp.C150_commands_sent_partial
#print axioms Verif.Tcp.C150_nonvacuous
#print axioms Verif.Tcp.C151_messages_in_order
#print axioms Verif.Tcp.C151_nonvacuous
#print axioms Verif.Usr.C152_vectors_violated
#print axioms Verif.Usr.C152_vectors_partial
#print axioms Verif.Usr.C152_nonvacuous
#print axioms Verif.Usr.C153_quotient_violated
#print axioms Verif.Usr.C153_exact_partial
#print axioms Verif.Usr.C153_rounded_partial
#print axioms Verif.Usr.C153_nonvacuous
#print axioms Verif.Law.C154_law_violated
#print axioms Verif.Law.C154_commands_partial
#print axioms Verif.Law.C154_instances_partial
#print axioms Verif.Law.C154_values_partial
#print axioms Verif.Law.C154_nonvacuous
#print axioms Verif.Subgoal.C155_subgoals_violated
#print axioms Verif.Subgoal.C155_core_partial
#print axioms Verif.Subgoal.C155_simulated_partial
#print axioms Verif.Subgoal.C155_actual_never
#print axioms Verif.Subgoal.C155_nonvacuous
#print axioms Verif.Icst.C156_instance_violated
#print axioms Verif.Icst.C156_core_partial
#print axioms Verif.Icst.C156_rest_partial
#print axioms Verif.Icst.C156_nonvacuous
#print axioms Verif.Promote.C157_assume_violated
#print axioms Verif.Promote.C157_core_partial
#print axioms Verif.Promote.C157_complete_partial
#print axioms Verif.Promote.C157_earlier_partial
#print axioms Verif.Promote.C157_nonvacuous
#print axioms Verif.Cores.C158_stop_violated
#print axioms Verif.Cores.C158_stop_partial
#print axioms Verif.Cores.C158_nearer_partial
#print axioms Verif.Cores.C158_prompt_partial
#print axioms Verif.Cores.C158_nonvacuous
#print axioms Verif.Timed.C159_jobs_violated
#print axioms Verif.Timed.C159_next_partial
#print axioms Verif.Timed.C159_punctual_partial
#print axioms Verif.Timed.C159_single_partial
#print axioms Verif.Timed.C159_early_partial
#print axioms Verif.Timed.C159_nonvacuous
#print axioms Verif.Tpl.C160_template_violated
#print axioms Verif.Tpl.C160_whole_partial
#print axioms Verif.Tpl.C160_plain_partial
#print axioms Verif.Tpl.C160_variables_partial
#print axioms Verif.Tpl.C160_nonvacuous
#print axioms Verif.Ins.C161_ins_violated
#print axioms Verif.Ins.C161_ins_partial
#print axioms Verif.Ins.C161_linear_partial
#print axioms Verif.Ins.C161_nonvacuous
#print axioms Verif.Inp.C162_pattern_violated
#print axioms Verif.Inp.C162_tree_partial
#print axioms Verif.Inp.C162_nonvacuous
#print axioms Verif.Eval.C163_value_violated
#print axioms Verif.Eval.C163_value_partial
#print axioms Verif.Eval.C163_nonvacuous
#print axioms Verif.Eval.C164_program_violated
#print axioms Verif.Eval.C164_program_partial
#print axioms Verif.Eval.C164_nonvacuous
#print axioms Verif.Eval.C165_pattern_violated
#print axioms Verif.Eval.C165_pattern_partial
#print axioms Verif.Eval.C165_nonvacuous
#print axioms Verif.Keep.C166_red_violated
#print axioms Verif.Keep.C166_red_partial
#print axioms Verif.Keep.C166_nonvacuous
#print axioms Verif.Gev.C167_guards_violated
#print axioms Verif.Gev.C167_guards_partial
#print axioms Verif.Gev.C167_nonvacuous
#print axioms Verif.Gev.C168_timings_violated
#print axioms Verif.Gev.C168_timings_partial
#print axioms Verif.Gev.C168_nonvacuous
#print axioms Verif.Extrema.C169_minmax_violated
#print axioms Verif.Extrema.C169_minmax_partial
#print axioms Verif.Extrema.C169_nonvacuous
#print axioms Verif.Cov.C170_injection
#print axioms Verif.Cov.C170_nonvacuous
#print axioms Verif.Cov.C171_update
#print axioms Verif.Cov.C171_nonvacuous
#print axioms Verif.Inless.C172_runs_violated
#print axioms Verif.Inless.C172_runs_partial
#print axioms Verif.Inless.C172_nonvacuous
#print axioms Verif.Oper.C173_operators_violated
#print axioms Verif.Oper.C173_operators_partial
#print axioms Verif.Oper.C173_nonvacuous
#print axioms Verif.Meta.C174_metadata_violated
#print axioms Verif.Meta.C174_metadata_partial
#print axioms Verif.Meta.C174_nonvacuous
#print axioms Verif.Mix.C175_simulations_violated
#print axioms Verif.Mix.C175_simulations_partial
#print axioms Verif.Mix.C175_nonvacuous
#print axioms Verif.Marks.C176_markers_violated
#print axioms Verif.Marks.C176_markers_partial
#print axioms Verif.Marks.C176_nonvacuous
#print axioms Verif.Lay.C177_layout_violated
#print axioms Verif.Lay.C177_layout_partial
#print axioms Verif.Lay.C177_nonvacuous
#print axioms Verif.Absi.C178_abstraction_violated
#print axioms Verif.Absi.C178_abstraction_partial
#print axioms Verif.Absi.C178_nonvacuous
#print axioms Verif.Simout.C179_outcomes_violated
#print axioms Verif.Simout.C179_outcomes_partial
#print axioms Verif.Simout.C179_nonvacuous
#print axioms Verif.Ackg.C180_outcome_violated
#print axioms Verif.Ackg.C180_outcome_partial
#print axioms Verif.Ackg.C180_nonvacuous
