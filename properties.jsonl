{"id": "C01", "title": "Atom fields survive encoding", "statement": "Every code word built through a pointer, set, object, operator, device, assignment or cast constructor gives back, through the matching accessor, exactly the index, input index, opcode, arity, class/device id, variable index or cast opcode it was built from, as long as the argument fits the documented field width (12-bit indices and opcodes, 8-bit counts and ids); a wider argument is reduced to the field width and never leaks into another field or into the kind tag.", "quantifier": "every constructor, every 16-bit index/opcode and every 8-bit count or id", "why_tests_cant": "The argument space of the two- and three-argument constructors is 2^24..2^32 words per constructor; tests sample a handful.", "anchors": ["r_code/atom.h:Atom", "r_code/atom.inline.cpp:IPointer,VLPointer,RPointer,InObjPointer,DInObjPointer,AssignmentPointer,CodeVLPointer,SSet,Set,Object,Marker,Operator,Device,getDescriptor,asIndex,asOpcode,getAtomCount"]}
{"id": "C02", "title": "Atom kinds never overlap", "statement": "A code word built by one constructor is never recognised as another kind: the kind tag read back is the constructor's own, a word that reads as a number is never a pointer or a structure, and every word built from a number reads as a number, so dispatch on the kind is unambiguous for every value stored.", "quantifier": "every pair of constructors and every argument, and every 32-bit float pattern", "why_tests_cant": "Needs all 2^32 float patterns against all tags.", "anchors": ["r_code/atom.inline.cpp:Float,getDescriptor,isFloat,isStructural", "r_code/atom.h:Type"]}
{"id": "C03", "title": "Numbers lose at most their last mantissa bit", "statement": "A 32-bit float stored in an object's code and read back is the same float with the least significant mantissa bit cleared: sign and exponent are kept, infinities and zeros are exact, the magnitude never grows, the error is at most one unit in the last place, and storing the read value again changes nothing.", "quantifier": "every 32-bit float pattern, finite, infinite, denormal or NaN", "why_tests_cant": "2^32 patterns; the NaN/infinity boundary is a single pattern pair.", "anchors": ["r_code/atom.inline.cpp:Float,asFloat,PlusInfinity,MinusInfinity"]}
{"id": "C04", "title": "Every undefined value reads as nil", "statement": "Each 'undefined value' constant the code can store (undefined float, boolean, node, device, device function, string, timestamp) as well as nil and the empty set is recognised by the nil test, and no ordinary value is.", "quantifier": "all undefined-value constructors; every other constructor and argument", "why_tests_cant": "A test on the constants would have to exist for each of them; the header promises 'true for all undefined values' and the no-false-positive half ranges over all arguments.", "anchors": ["r_code/atom.inline.cpp:readsAsNil,UndefinedFloat,UndefinedTimestamp", "r_code/atom.h:readsAsNil"]}
{"id": "C05", "title": "Node and device addresses survive encoding", "statement": "The node id read from a node word or a device word is the node id the word was built with.", "quantifier": "every node id, class id and device id", "why_tests_cant": "Ejection to remote nodes is never exercised on a single machine; with id 0 the broken and the correct decoding agree.", "anchors": ["r_code/atom.inline.cpp:Node,Device,getNodeID", "r_exec/pgm_overlay.cpp:InputLessPGMOverlay::inject_productions"]}
{"id": "C06", "title": "Timestamps and durations written into an object read back unchanged", "statement": "Writing a timestamp or duration into an object and reading it at the same place returns the same signed 64-bit microsecond count, for the indirect form, the in-place structure form and the fact constructor; every word of the object outside the words the value occupies is unchanged.", "quantifier": "every 64-bit time value, every object code, every valid position", "why_tests_cant": "2^64 values and arbitrary surrounding code; sign and word-order errors show only on large or negative values.", "anchors": ["r_code/utils.h:SetTimestamp,GetTimestamp,SetTimestampStruct,SetDurationStruct,GetDuration", "r_code/utils.h:SetInt64,GetInt64"]}
{"id": "C07", "title": "Strings written into an object read back unchanged", "statement": "A string stored in an object's code is read back as the same string, and the number of words it is said to occupy is the number actually written.", "quantifier": "every string of up to 255 bytes, any byte value", "why_tests_cant": "Byte values above 127, embedded zero bytes and lengths around the limits are rarely in test data.", "anchors": ["r_code/utils.h:SetString,GetString", "r_code/atom.inline.cpp:String"]}
{"id": "C08", "title": "The array-backed list behaves like a sequence", "statement": "Under any history of appending, prepending, erasing at an iterator or position, removing by value and clearing, iterating the list yields exactly the elements of the corresponding abstract sequence in order, its size is that length, and the position of an element does not move while it is in the list.", "quantifier": "all operation histories over any element type", "why_tests_cant": "Free-cell reuse makes behaviour depend on the whole history.", "anchors": ["r_code/list.h:list"]}
{"id": "C09", "title": "A stored position designates the pushed element", "statement": "The position handed back when an element is appended or prepended is a position from which exactly that element is later erased, whatever happened in between to other elements.", "quantifier": "all histories before and after the push", "why_tests_cant": "Needs histories with no recycled cell at the time of the push.", "anchors": ["r_code/list.h:push_back(const T&, int32&),push_front(const T&, int32&),erase(int32)", "r_exec/mem.cpp:MemStatic::bind,MemStatic::delete_object"]}
{"id": "C10", "title": "Iterating a time buffer never yields an expired or invalidated element", "statement": "Walking a time buffer from a given instant yields only elements that are neither invalidated nor older than the buffer's horizon, in insertion order, and drops from the buffer exactly the dead elements it passes.", "quantifier": "all buffer contents and all instants", "why_tests_cant": "Depends on which position of the buffer the dead element occupies.", "anchors": ["r_code/time_buffer.h:time_buffer::begin,time_buffer::iterator::operator ++"]}
{"id": "C11", "title": "Image records are self-delimiting and lossless", "statement": "Writing a view or an object record to a word buffer and reading it back gives the same code, references, views and markers, consumes exactly the number of words it was said to need, and leaves whatever follows in the buffer untouched, so records can be concatenated.", "quantifier": "every object with up to 65535-entry tables, every following buffer contents", "why_tests_cant": "Round trip over all sizes and all trailing data.", "anchors": ["r_code/image_impl.cpp", "r_code/image.cpp:SysObject::write,SysObject::read,SysObject::get_size,SysView::write,SysView::read"]}
{"id": "C12", "title": "A saved image loads as the same image", "statement": "Writing an image of any number of objects and reading it back yields the same timestamp, names and objects in the same order.", "quantifier": "every image", "why_tests_cant": "Offsets depend on all preceding objects' sizes.", "anchors": ["r_code/image.tpl.cpp:Image::Read,Image::Write", "r_code/image.h"]}
{"id": "C13", "title": "Narrowing a variable's time interval is exact", "statement": "Matching a stored time interval against a bound one succeeds exactly when the two intervals share an instant under the documented open/closed rule, in which case the bound interval becomes precisely the intersection; on failure the bindings are unchanged.", "quantifier": "every pair of intervals of 64-bit instants", "why_tests_cant": "Boundary cases (touching, point intervals, containment on either side) over 2^256 combinations.", "anchors": ["r_exec/binding_map.cpp:HLPBindingMap::match_timings"]}
{"id": "C14", "title": "The order in which evidence is matched does not change the resulting interval", "statement": "If every interval of a collection is matched in turn, whether the collection as a whole succeeds and the interval finally bound depend only on the collection, not on the order of arrival.", "quantifier": "all finite collections of intervals and all permutations", "why_tests_cant": "Factorially many orders.", "anchors": ["r_exec/binding_map.cpp:HLPBindingMap::match_timings"]}
{"id": "C15", "title": "Unbound-variable counting is right", "statement": "A binding map reports itself fully bound exactly when none of its variables is unbound, after any history of adding variables, binding, rebinding, copying and clearing.", "quantifier": "all operation histories", "why_tests_cant": "The count is maintained incrementally on a dozen paths.", "anchors": ["r_exec/binding_map.cpp:BindingMap::is_fully_specified,add_unbound_value,bind_variable", "r_exec/binding_map.h"]}
{"id": "C16", "title": "Evidence classification is exact for ordinary facts", "statement": "An input is reported as positive (resp. negative) evidence for a target exactly when it states the same thing with the same (resp. opposite) polarity over an overlapping interval, or is a fact covering the target's interval and giving a contradictory value to the same attribute of the same object while the target is denied (resp. stated); otherwise it is reported as unrelated.", "quantifier": "all facts and anti-facts, all intervals", "why_tests_cant": "Combinatorial polarity × matching × timing cases.", "anchors": ["r_exec/factory.cpp:_Fact::is_evidence,_Fact::Match,_Fact::CounterEvidence"]}
{"id": "C17", "title": "Timeless evidence classification agrees with timed classification", "statement": "Ignoring timings, an input is classified as evidence for a target exactly as it would be if their intervals were compatible.", "quantifier": "all polarity combinations and all contents", "why_tests_cant": "The two functions are separate copies of the same logic.", "anchors": ["r_exec/factory.cpp:_Fact::is_timeless_evidence,_Fact::is_evidence"]}
{"id": "C18", "title": "Contradictory composite states are counter-evidence", "statement": "An observed composite-state instance that differs from the target instance of the same composite state only in the value of one of its components is counter-evidence for the target.", "quantifier": "all composite-state instances", "why_tests_cant": "Requires constructing nested instances; the recursion is on a different object type than the test at its entry.", "anchors": ["r_exec/factory.cpp:_Fact::CounterEvidence"]}
{"id": "C19", "title": "Fact matching is a similarity relation", "statement": "Matching two facts is reflexive on fully specified facts and symmetric, ignores wildcards on either side, and with the strict flag additionally requires variables to line up.", "quantifier": "all facts, structured values of any depth", "why_tests_cant": "Recursive over arbitrary structures.", "anchors": ["r_exec/factory.cpp:_Fact::Match,_Fact::MatchStructure,_Fact::MatchObject"]}
{"id": "C20", "title": "Asserting absence and flipping polarity are exact", "statement": "The absentee of a fact is the opposite-polarity fact about the same object and interval with full confidence; flipping polarity twice restores the fact; neither changes interval or object.", "quantifier": "all facts and anti-facts", "why_tests_cant": "All contents and intervals.", "anchors": ["r_exec/factory.cpp:_Fact::get_absentee,_Fact::set_opposite"]}
{"id": "C21", "title": "Control values stay within bounds and average the requests", "statement": "After every update of a view, its saliency, activation and visibility lie in [0,1]; the change applied is the mean of all changes requested since the last update, a request for an absolute value counting as the difference to the present value; with no request the value is unchanged.", "quantifier": "all sequences of set/mod requests and updates with rational values", "why_tests_cant": "All interleavings of requests.", "anchors": ["r_exec/view.cpp:View::mod_sln,View::set_sln,View::update_sln,View::mod_act,View::update_act"]}
{"id": "C22", "title": "An object with resilience n disappears at its n-th update", "statement": "Without further changes, a view of resilience n is reported dead at exactly the n-th update after injection and not before; an infinitely resilient view never is; the view of an invalidated object is at the next update.", "quantifier": "all n and all group histories without resilience requests", "why_tests_cant": "Off-by-one over all n.", "anchors": ["r_exec/view.cpp:View::update_res"]}
{"id": "C23", "title": "Low-/high-control-value notifications count consecutive periods", "statement": "The notification that a view has stayed above (below) the high (low) threshold is raised exactly when its value has been above (below) for the configured number of consecutive updates.", "quantifier": "all value histories", "why_tests_cant": "Needs long histories with interruptions.", "anchors": ["r_exec/view.cpp:View::update_sln,View::periods_at_high_sln_"]}
{"id": "C24", "title": "Group statistics are the true extremes and mean", "statement": "The average, highest and lowest saliency (activation) a group publishes after an update are the mean, maximum and minimum over the views updated in that period.", "quantifier": "all groups and value multisets, all visiting orders", "why_tests_cant": "Depends on the order in which values are visited.", "anchors": ["r_exec/group.cpp:Group::update_stats,Group::update_sln,Group::reset_stats"]}
{"id": "C25", "title": "Synchronised jobs fire on their group's own period grid", "statement": "For an instant not before the time reference, the next update time computed for a group strictly follows (the previous one does not follow) the given instant, lies on the grid of multiples of the update period from the time reference, and no other grid point lies between.", "quantifier": "all instants, periods and base periods", "why_tests_cant": "Integer division boundaries over 64-bit values.", "anchors": ["r_exec/group.cpp:Group::get_next_upr_time,Group::get_prev_upr_time"]}
{"id": "C26", "title": "Saliency changes propagate along marker chains", "statement": "A change of an object's saliency above threshold is propagated to the objects reachable through markers, each at most once, along any number of hops.", "quantifier": "all object graphs", "why_tests_cant": "Graph shape is unbounded.", "anchors": ["r_exec/group.cpp:Group::_initiate_sln_propagation,Group::_propagate_sln"]}
{"id": "C27", "title": "Jobs run in time order, first come first served among equals", "statement": "In diagnostic time, delayed jobs are executed in non-decreasing order of their target time, in submission order among equal targets, and none runs before its target time.", "quantifier": "all job sets, all jobs pushed during execution, all clock values", "why_tests_cant": "All arrival orders and re-insertions.", "anchors": ["r_exec/mem.cpp:_Mem::DiagnosticTimeState::step"]}
{"id": "C28", "title": "The diagnostic clock never runs backwards and never skips a job", "statement": "Simulated time is non-decreasing across steps, never passes the time of a pending job, and always advances when no work is pending.", "quantifier": "all histories of steps and jobs", "why_tests_cant": "Unbounded histories.", "anchors": ["r_exec/mem.cpp:_Mem::DiagnosticTimeState::step"]}
{"id": "C29", "title": "No job is lost or duplicated by the diagnostic loop", "statement": "Every job taken from the queues is executed and either retired or re-queued at the time it asked for; the multiset of outstanding jobs changes only by executed, newly pushed and re-armed jobs.", "quantifier": "all histories", "why_tests_cant": "Unbounded histories.", "anchors": ["r_exec/mem.cpp:_Mem::DiagnosticTimeState::step"]}
{"id": "C30", "title": "Object identifiers are unique", "statement": "Any two objects ever stored have different identifiers, identifiers are handed out in increasing order, objects loaded from an image keep theirs, and deleting objects never causes reuse.", "quantifier": "all histories of load, bind and delete", "why_tests_cant": "Unbounded histories.", "anchors": ["r_exec/mem.cpp:MemStatic::bind,MemStatic::delete_object,_Mem::load,_Mem::set_last_oid"]}
{"id": "C31", "title": "Nothing is injected early or after invalidation", "statement": "A view whose injection time lies in the future is not injected before that time; one whose time has come is injected at once; a view of an invalidated object or into an invalidated group is never injected.", "quantifier": "all injection times, clock values and invalidation points", "why_tests_cant": "All orderings of invalidation and clock.", "anchors": ["r_exec/mem.cpp:_Mem::inject", "r_exec/time_job.cpp:InjectionJob::update"]}
{"id": "C32", "title": "Latency averages cover exactly one sampling window", "statement": "The average latency reported for a window is the mean latency of the jobs executed in that window.", "quantifier": "all windows and job latencies", "why_tests_cant": "Needs more than one window with non-zero history.", "anchors": ["r_exec/mem.cpp:_Mem::inject_perf_stats"]}
{"id": "C33", "title": "Invalidation is permanent, idempotent and propagates to exactly the dependents", "statement": "Once an object is reported invalid it stays so; an object is reported invalid exactly when it or something it depends on (fact's content, prediction's simulations, grounds, defeasible validities and target, goal's simulation's super-goal, composite components) was invalidated; queries never invalidate an independent object.", "quantifier": "all acyclic dependency graphs and invalidation histories", "why_tests_cant": "Graph-shaped state and query side effects.", "anchors": ["r_exec/factory.cpp:_Fact::is_invalidated,Pred::is_invalidated,Goal::is_invalidated,Sim::is_invalidated,ICST::is_invalidated", "r_exec/object.tpl.cpp:Object::invalidate,is_invalidated"]}
{"id": "C34", "title": "A prediction lists its simulations in the order given", "statement": "A prediction built with simulations s0..s(n-1) returns s(i) when asked for the i-th, and all its 'any simulation' queries range over exactly these.", "quantifier": "all n and all simulations", "why_tests_cant": "n = 1 hides the error.", "anchors": ["r_exec/factory.cpp:Pred::Pred,Pred::get_simulation,Pred::has_simulation"]}
{"id": "C35", "title": "A simulated goal is pursued at most once per simulation root", "statement": "Among the goal targets accepted for a simulation no two match each other, and a target is refused exactly when a matching one was already accepted.", "quantifier": "all sequences of goal targets", "why_tests_cant": "All sequences and similarity relations.", "anchors": ["r_exec/factory.cpp:Sim::register_goal_target"]}
{"id": "C36", "title": "The model base keeps valid and failed models apart", "statement": "No model is ever both registered as usable and black-listed; a black-listed model is refused until it has not been touched for the retention time; registering a known model returns the existing one.", "quantifier": "all histories of registration, failure, time-out and trimming", "why_tests_cant": "Unbounded histories.", "anchors": ["r_exec/model_base.cpp:ModelBase::check_existence,register_mdl_failure,register_mdl_timeout,trim_objects"]}
{"id": "C37", "title": "A pair of models is registered together", "statement": "When two models are registered as a pair and the second is not black-listed, afterwards both are known to the model base.", "quantifier": "all model base states and pairs", "why_tests_cant": "Needs the second model to be known already.", "anchors": ["r_exec/model_base.cpp:ModelBase::check_existence(Code*,Code*,...)"]}
{"id": "C38", "title": "Packing a model for storage is lossless", "statement": "Unpacking a packed model gives back a model with the same patterns; packing never merges different objects and every reference in the result is in range.", "quantifier": "all two-pattern models over all object graphs of the supported shape", "why_tests_cant": "Reference renumbering and deduplication depend on sharing.", "anchors": ["r_exec/mem.cpp:_Mem::pack_hlp,_Mem::unpack_hlp,pack_fact,pack_fact_object,unpack_fact,unpack_fact_object"]}
{"id": "C39", "title": "Rolling back a program overlay restores the last committed state", "statement": "After any number of patches and evaluations since the last commit, rolling back leaves the program code and the value array exactly as they were at that commit.", "quantifier": "all sequences of patches, commits and rollbacks", "why_tests_cant": "All histories; requires re-patching an already committed position.", "anchors": ["r_exec/overlay.cpp:Overlay::patch_code,Overlay::unpatch_code,Overlay::rollback,Overlay::commit"]}
{"id": "C40", "title": "The reduction operator processes every matching input", "statement": "Reducing a set of inputs with a positive section produces one production group per matching input and leaves exactly the non-matching inputs for the negative section.", "quantifier": "all input sets and patterns", "why_tests_cant": "Depends on the position of the first non-matching input.", "anchors": ["r_exec/_context.cpp", "r_exec/context.cpp:IPGMContext::Red,IPGMContext::reduce"]}
{"id": "C41", "title": "Generated guards let a model run backwards", "statement": "The guards generated for a learnt model compute, forwards, the right-hand side's timings and value from the left-hand side's and, backwards, recover the left-hand side's timings and value from the right-hand side's, for every time offset and value.", "quantifier": "all variable numberings, offsets, periods and values", "why_tests_cant": "All offsets and index layouts.", "anchors": ["r_exec/guard_builder.cpp:TimingGuardBuilder,SGuardBuilder,CmdGuardBuilder,ConstGuardBuilder,NoArgCmdGuardBuilder"]}
{"id": "C42", "title": "Deciding whether backward chaining is possible always terminates and is right", "statement": "The check that every variable needed by a model's backward guards can be computed terminates, and answers yes exactly when an evaluation order exists.", "quantifier": "all guard sets", "why_tests_cant": "Cyclic guard sets of length two or more.", "anchors": ["r_exec/hlp_overlay.cpp:HLPOverlay::scan_bwd_guards,scan_location,scan_variable"]}
{"id": "C43", "title": "Requirements gate predictions as documented", "statement": "A model with weak requirements only fires exactly when a live, in-range, matching weak requirement exists; with strong requirements only, exactly when no such strong requirement is active; with both, exactly when some matching weak requirement is not contradicted by the first matching strong one or is more confident. A live requirement is one that has not expired, has not been invalidated and was itself produced by chaining that was allowed.", "quantifier": "all caches of requirements, confidences and ages", "why_tests_cant": "All cache contents and orders.", "anchors": ["r_exec/mdl_controller.cpp:MDLController::retrieve_imdl_fwd,retrieve_imdl_bwd,retrieve_simulated_imdl_fwd,retrieve_simulated_imdl_bwd"]}
{"id": "C44", "title": "Expired requirements are dropped without touching others", "statement": "Consulting the requirements of a model removes from its caches exactly the expired entries that were visited and nothing else.", "quantifier": "all cache contents", "why_tests_cant": "Needs an expired strong requirement while weak ones are cached.", "anchors": ["r_exec/mdl_controller.cpp:MDLController::retrieve_imdl_fwd"]}
{"id": "C45", "title": "A model's success rate is the fraction of its predictions that came true", "statement": "Between strength promotions the recorded rate equals successes divided by outcomes and lies in [0,1]; a success never lowers it, a failure never raises it; a strong model is never deleted by a failure, a weak one is deleted exactly when its rate falls to the activation threshold.", "quantifier": "all outcome histories and thresholds", "why_tests_cant": "Unbounded histories.", "anchors": ["r_exec/mdl_controller.cpp:PrimaryMDLController::rate_model,SecondaryMDLController::rate_model"]}
{"id": "C46", "title": "Requirement counts follow the live requirement models", "statement": "The number of strong and weak requirements a model reports equals the number of requirement models currently in force for it, whatever the order in which primary and secondary controllers are created and killed.", "quantifier": "all histories of controller creation and death", "why_tests_cant": "Requires both controllers of one model to be killed.", "anchors": ["r_exec/mdl_controller.cpp:add_requirement_to_rhs,remove_requirement_from_rhs,PrimaryMDLController::kill_views,SecondaryMDLController::kill_views", "r_exec/hlp_controller.cpp:add_requirement,remove_requirement"]}
{"id": "C47", "title": "The evidence cache keeps every valid evidence once", "statement": "After any history of stores and checks each cached evidence occurs once, every stored evidence that is neither invalidated nor expired is still found, newest first, and a check returns the newest entry that matches.", "quantifier": "all histories", "why_tests_cant": "Unbounded histories with garbage collection on both paths.", "anchors": ["r_exec/hlp_controller.h:HLPController::_store_evidence", "r_exec/hlp_controller.cpp:HLPController::check_evidences"]}
{"id": "C48", "title": "A monitored goal gets exactly one outcome", "statement": "A goal monitor reports at most one outcome, success only on positive evidence before the deadline, failure on counter-evidence or at the deadline, and after its deadline exactly one.", "quantifier": "all input and timer interleavings", "why_tests_cant": "All interleavings of input and two timer jobs.", "anchors": ["r_exec/g_monitor.cpp:GMonitor,RMonitor", "r_exec/time_job.h:MonitoringJob"]}
{"id": "C49", "title": "A prediction monitor rates each prediction at most once", "statement": "For one prediction at most one outcome is registered; a positive match before the deadline is a success, an actual counter-evidence a failure, and silence until the deadline a failure exactly when failures are to be rated and the target is a fact.", "quantifier": "all input histories", "why_tests_cant": "All interleavings.", "anchors": ["r_exec/p_monitor.cpp:PMonitor::reduce,PMonitor::update"]}
{"id": "C50", "title": "Composite states are recognised from every admissible combination of inputs", "statement": "Each overlay of a composite state remembers which patterns are matched by which inputs: no input is used twice in an instance, every pattern is used once, and a partial match never prevents another input from being used for the same pattern.", "quantifier": "all input streams", "why_tests_cant": "All orders and repetitions.", "anchors": ["r_exec/cst_controller.cpp:CSTOverlay::reduce,CSTOverlay::get_offspring,CSTController::reduce"]}
{"id": "C51", "title": "A composite state depends on all its sub-models", "statement": "A composite state stops being used as soon as the controller of any model or composite state occurring in its patterns is invalidated.", "quantifier": "all composite states and invalidation orders", "why_tests_cant": "Only the first pattern is ever exercised in small tests.", "anchors": ["r_exec/cst_controller.cpp:CSTController::CSTController", "r_exec/hlp_controller.cpp:HLPController::become_invalidated"]}
{"id": "C52", "title": "Simulation horizons fit the time available", "statement": "The time allotted to simulating a goal is never negative, never exceeds the configured maximum, and leaves at least the configured minimum before the share of the deadline reserved for simulation.", "quantifier": "all deadlines, clock values and configured horizons", "why_tests_cant": "64-bit arithmetic boundaries.", "anchors": ["r_exec/mdl_controller.cpp:PMDLController::get_sim_thz", "r_exec/mem.h:get_sim_time_horizon"]}
{"id": "C53", "title": "Arithmetic on times and infinities obeys the usual laws", "statement": "Adding a duration to a timestamp and subtracting it again is the identity, the difference of two timestamps added to the earlier one gives the later one, a whole number added to or subtracted from a time counts as microseconds, comparisons are total orders consistent with each other, and results involving infinities are the IEEE ones.", "quantifier": "all 64-bit times (absent overflow), all infinity combinations", "why_tests_cant": "All values and type combinations.", "anchors": ["r_exec/operator.cpp:add,sub,mul,div,gtr,lsr,gte,lse"]}
{"id": "C54", "title": "Program overlays account for every pattern", "statement": "At any time an overlay's matched inputs and remaining patterns together make up the program's input patterns; an offspring differs only by not having matched the last input, so every sub-multiset of matches keeps being available.", "quantifier": "all programs and input streams", "why_tests_cant": "Unbounded streams.", "anchors": ["r_exec/pgm_overlay.cpp:PGMOverlay::reduce,PGMOverlay::match,PGMOverlay::PGMOverlay(PGMOverlay*,...)"]}
{"id": "C55", "title": "Views of a group are visited once each", "statement": "Iterating over all views of a group visits each view exactly once, regardless of how views are distributed over the group's categories and of empty categories.", "quantifier": "all groups", "why_tests_cant": "Six nested maps with empty ones in any position.", "anchors": ["r_exec/group.h:Group::views_begin,views_iterator", "r_exec/group.cpp"]}
{"id": "C56", "title": "Number-to-text time rendering is value preserving", "statement": "The textual rendering of a time in microseconds or in seconds:milliseconds:microseconds determines the time, and the compiler reads the text back as the same value.", "quantifier": "all 64-bit values", "why_tests_cant": "Padding and sign boundaries.", "anchors": ["r_code/utils.h:Utils::ToString_us,Utils::ToString_s_ms_us", "r_comp/compiler.cpp:Compiler::duration,Compiler::timestamp_s_ms_us"]}
{"id": "C57", "title": "The check that a model's guards hold no references is exact", "statement": "When a program or model is loaded, the scan of its guard code for references to other objects terminates and answers yes exactly when some code word of the scanned expression designates a reference; the raw data words of times and strings are never mistaken for code.", "quantifier": "all code vectors, including every timestamp and duration value", "why_tests_cant": "2^64 data values per time; pointer graphs of any depth.", "anchors": ["r_code/code_utils.cpp:Utils::has_reference", "r_exec/mem.cpp:_Mem::load"]}
{"id": "C58", "title": "Input pointers designate the program pattern they were made for", "statement": "When a program matches an input, each pointer written into its code designates the very input and the very position it was made for, whatever the size of the program.", "quantifier": "all programs up to the documented 4095 code words", "why_tests_cant": "Only programs larger than any test exceed the field width.", "anchors": ["r_exec/pgm_overlay.cpp:PGMOverlay::patch_input_code", "r_code/atom.inline.cpp:DInObjPointer,AssignmentPointer"]}
{"id": "C59", "title": "Class metadata survives being written and read", "statement": "A class record and each of its member records written to a word buffer are read back unchanged and leave the rest of the buffer untouched.", "quantifier": "all class names, member lists and buffers", "why_tests_cant": "Strings of every length modulo the word size, any number of members.", "anchors": ["r_comp/class.cpp:Class::write,Class::read,Class::Class", "r_comp/structure_member.cpp:StructureMember::write,StructureMember::read", "r_comp/segments.cpp:Metadata::read"]}
{"id": "C60", "title": "The object map of a saved image locates every object", "statement": "Whenever an image is serialised, entry i of its object map is the position in the data at which the record of object i starts.", "quantifier": "all images and any number of serialisations", "why_tests_cant": "16-bit offsets only overflow on images larger than tests use.", "anchors": ["r_comp/segments.h:Image::serialize", "r_comp/segments.cpp:ObjectMap::shift,ObjectMap::write,Image::add_sys_object", "r_code/image.tpl.cpp:Image::get_object"]}
{"id": "C61", "title": "Different constants do not match", "statement": "Matching two structures holding different strings, or different durations, fails.", "quantifier": "all strings up to 254 ASCII characters, all durations, any tolerance up to the default", "why_tests_cant": "Depends on the numeric interpretation of raw data words; only some values collide.", "anchors": ["r_exec/factory.cpp:_Fact::MatchStructure,_Fact::MatchAtom", "r_code/atom.inline.cpp:Atom::isFloat"]}
{"id": "C62", "title": "A view copied to another group keeps its standing", "statement": "When a visible view is copied into another group, its control value stays within [0,1] and is above the destination's threshold exactly when it was above the source's.", "quantifier": "all values and thresholds in [0,1], destination threshold below 1", "why_tests_cant": "Three formulas chosen by comparisons with zero; wrong only for some threshold pairs.", "anchors": ["r_exec/view.cpp:View::MorphValue,View::View(View*,Group*)"]}
{"id": "C63", "title": "Propagated saliency changes keep their direction", "statement": "A decrease (increase) of an object's saliency is passed on to the views of the objects it is propagated to as a decrease (increase).", "quantifier": "all changes and thresholds", "why_tests_cant": "Only visible for negative changes between groups with particular thresholds.", "anchors": ["r_exec/view.cpp:View::MorphChange", "r_exec/mem.cpp:_Mem::propagate_sln"]}
{"id": "C64", "title": "The object list holds every live object once", "statement": "At every moment the list of stored objects, from which images of the running system are made, holds each registered object that has not been invalidated exactly once, and (unless invalidated objects are to be kept) no other.", "quantifier": "all histories of loading, injection, notification and invalidation", "why_tests_cant": "Unbounded histories; needs an object bound more than once.", "anchors": ["r_exec/mem.cpp:MemStatic::bind,MemStatic::delete_object,MemStatic::get_objects", "r_exec/object.tpl.cpp:Object::invalidate"]}
{"id": "C65", "title": "Instances of a composite state satisfy its guards", "statement": "A composite state is only instantiated with values that satisfy its forward guards.", "quantifier": "all composite states, guards and input streams", "why_tests_cant": "All guards and streams; an instance with unsatisfied guards looks like any other.", "anchors": ["r_exec/cst_controller.cpp:CSTOverlay::reduce", "r_exec/hlp_overlay.cpp:HLPOverlay::HLPOverlay,HLPOverlay::evaluate_fwd_guards"]}
{"id": "C66", "title": "The depth of simulations is bounded by the time there is", "statement": "Every model that a simulated goal is chained through leaves less time to its sub-goals, so that only finitely many models in a row are simulated.", "quantifier": "all horizons, settings and chains of models and composite states", "why_tests_cant": "Unbounded chains.", "anchors": ["r_exec/mdl_controller.cpp:PrimaryMDLController::abduce", "r_exec/cst_controller.cpp:CSTController::abduce"]}
{"id": "C67", "title": "Anti-programs fire exactly when nothing matched for their time scope", "statement": "An anti-program injects its productions at the end of a time scope, counted from its activation or from the last match, exactly if no combination of inputs matched its patterns and guards during it; every matching combination is noticed.", "quantifier": "all anti-programs and histories of inputs and signals", "why_tests_cant": "Unbounded histories; needs matches close to the signalling instants and inputs that fail the guards.", "anchors": ["r_exec/pgm_controller.cpp:AntiPGMController::reduce,AntiPGMController::signal_anti_pgm,AntiPGMController::restart", "r_exec/pgm_overlay.cpp:AntiPGMOverlay::reduce"]}
{"id": "C68", "title": "Every view injected into a group is filed in it", "statement": "After a view with an identifier that the group does not hold has been loaded or injected into a group, by any route, the group finds it under its identifier, so that updates and deletion reach it; after its deletion the group does not find it any more.", "quantifier": "all groups, kinds of objects and routes of injection", "why_tests_cant": "Needs every kind of object on every route; the missing case leaves no trace but the absence of the view.", "anchors": ["r_exec/mem.cpp:_Mem::inject", "r_exec/group.cpp:Group::inject,Group::inject_existing_object,Group::load,Group::inject_hlps,Group::delete_view,Group::get_view"]}
{"id": "C69", "title": "Start moves every time of a loaded object once", "statement": "When memory is started, every time in the code of a loaded object is moved by the time of the start exactly once (not beyond the greatest time), and nothing else in its code changes.", "quantifier": "all well-formed objects and start times", "why_tests_cant": "Depends on the shape of the code of an object; tests load few shapes.", "anchors": ["r_exec/mem.cpp:update_timestamps,_Mem::init_timestamps,_Mem::start"]}
{"id": "C70", "title": "A view lives as long as it was given to live", "statement": "A view injected with a time to live disappears at the first update of its group at or after the end of that time.", "quantifier": "all groups, base periods, instants and times to live", "why_tests_cant": "Wrong by a factor that only shows after thousands of updates; extreme values never disappear.", "anchors": ["r_code/code_utils.cpp:Utils::GetResilience", "r_exec/mem.h:_Mem::get_goal_pred_success_res", "r_exec/mem.cpp:_Mem::inject_null_program", "r_exec/cst_controller.cpp:CSTController::inject_icst"]}
{"id": "C71", "title": "Focus keeps the life of an input", "statement": "An input that the focus controller brings into another group lives there as long as in the group it came from.", "quantifier": "all resiliences and pairs of update periods", "why_tests_cant": "Depends on the ratio of update periods; needs two groups with particular periods.", "anchors": ["r_code/code_utils.cpp:Utils::GetResilience", "r_exec/auto_focus.cpp:AutoFocusController::inject_input"]}
{"id": "C72", "title": "A model is active where its rating says", "statement": "Each rated outcome makes a model active in its primary group with the recorded rate, or, for a strong model whose rate fell to the threshold, in its secondary group instead; a success brings it back. It is never active in both groups.", "quantifier": "all outcome histories and thresholds", "why_tests_cant": "Needs outcomes that arrive after the model has changed groups.", "anchors": ["r_exec/mdl_controller.cpp:PrimaryMDLController::rate_model,SecondaryMDLController::rate_model"]}
{"id": "C73", "title": "A program fires once for each complete combination whose guards hold", "statement": "A program injects its productions exactly for the combinations of inputs that match all its patterns and whose guards hold, and never twice for the same combination; a program that runs once fires at most once and reacts to nothing afterwards.", "quantifier": "all programs and streams of inputs", "why_tests_cant": "Unbounded streams; overlays multiply with every match.", "anchors": ["r_exec/pgm_overlay.cpp:PGMOverlay::reduce", "r_exec/pgm_controller.cpp:PGMController::reduce,PGMController::notify_reduction"]}
{"id": "C74", "title": "Objects saved from memory refer to the same objects when loaded", "statement": "An image made of the objects in memory (or of the models) holds each of them once; in the objects loaded from it every reference and every view's host and origin group designate the object made from the one they designated; the object map of the image gives the position of each object.", "quantifier": "all object graphs, lists of objects and both ways of treating invalidated objects", "why_tests_cant": "Arbitrary graphs; needs objects that are referred to but not saved, and models between other objects.", "anchors": ["r_comp/segments.cpp:Image::add_objects,Image::add_object,Image::build_references,Image::unpack_objects", "r_exec/mem.cpp:_Mem::get_models,MemStatic::get_objects"]}
{"id": "C75", "title": "An image made for decompiling holds all that is referred to", "statement": "The image made to decompile some objects on the fly is finished whatever the references, even circular ones; it holds the objects and all that they refer to, directly or not, including the groups of their views, each once, and its references designate the same objects.", "quantifier": "all finite object graphs and lists of objects", "why_tests_cant": "Arbitrary graphs, circular ones included.", "anchors": ["r_comp/segments.cpp:Image::add_object(Code*,vector<SysObject*>&)", "r_exec/init.cpp:TDecompiler::Decompile"]}
{"id": "C76", "title": "A copied structure is the structure", "statement": "Copying a structure, as binding a variable to it and writing the variable's value into an object do, ends and gives the same structure: the same words, member by member, with nothing else in the destination changed.", "quantifier": "all finite structures, destinations and positions", "why_tests_cant": "Depends on single bits of times and texts; only some instants in every 71.6 minutes fail.", "anchors": ["r_exec/binding_map.cpp:StructureValue::copy_structure,StructureValue::StructureValue", "r_exec/binding_map.h:StructureValue::valuate"]}
{"id": "C77", "title": "An instance of a model or composite state keeps the bindings", "statement": "The bindings of a model or composite state, written as a fact about an instance of it and read back into its initial bindings, give every template variable, every exposed variable and the timings what they had: the same object, atom or structure, or nothing for those that had nothing.", "quantifier": "all template arguments, bindings and depths of structures", "why_tests_cant": "Arbitrary nesting; needs template variables that are unbound or in time intervals.", "anchors": ["r_exec/binding_map.cpp:HLPBindingMap::build_f_ihlp,HLPBindingMap::build_ihlp_structure,HLPBindingMap::init_from_f_ihlp,HLPBindingMap::init_from_ihlp_args"]}
{"id": "C78", "title": "Binding a pattern gives the pattern with the values of its variables", "statement": "Binding a pattern ends and changes no existing object. A pattern without variables, in it or in what it refers to, is returned as it is; otherwise a new object is made with the same words, each variable replaced by what stands for its value and the references bound likewise. If all variables have values without variables, none is left. Entities, ontologies, models and states are never bound.", "quantifier": "all finite patterns and all bindings whose values copying keeps (C76, C80); objects of up to 4096 words and references (pointers have 12 bits)", "why_tests_cant": "Arbitrary nesting of references and structures; words that are data look like variables.", "anchors": ["r_exec/binding_map.cpp:HLPBindingMap::bind_pattern,HLPBindingMap::need_binding", "r_exec/binding_map.cpp:UnboundValue::valuate,AtomValue::valuate,ObjectValue::valuate"]}
{"id": "C79", "title": "The position given for an exposed variable is where the instance holds it", "statement": "The position given for a variable is not negative exactly if the variable is exposed and none of the first timings; the instance of the model or state holds the variable's value (or, without value, the variable) at that position of its exposed arguments, and different variables have different positions.", "quantifier": "all bindings with distinct first timings, whose values copying keeps (C76, C80), and template arguments; instances of up to 4096 words", "why_tests_cant": "Two functions that must agree for every place of the timings among the variables.", "anchors": ["r_exec/binding_map.cpp:HLPBindingMap::get_ihlp_exposed_args_position,HLPBindingMap::build_f_ihlp"]}
{"id": "C80", "title": "A structure bound to a variable keeps the objects it refers to", "statement": "A variable bound to a structure met in one object, written into another object, stands there for a structure with the same members: the same words and, where the structure refers to objects, the same objects.", "quantifier": "all finite structures whose words are copied (C76), objects and positions", "why_tests_cant": "Needs a structure with references written into an object with other references.", "anchors": ["r_exec/binding_map.cpp:StructureValue::StructureValue,StructureValue::copy_structure,UnboundValue::match", "r_exec/binding_map.h:StructureValue::valuate"]}
{"id": "C81", "title": "Matching an object with a pattern finds exactly the values that make the pattern the object", "statement": "Matching an object without variables with a pattern ends and keeps the variables bound before. If it succeeds, the object is the pattern with the values the variables then have, up to the tolerances on numbers and times. If there are values, agreeing with those bound before, that make the pattern exactly the object, matching succeeds and binds the variables to no other values.", "quantifier": "all finite objects without variables or wildcards, finite patterns without intervals between variables, binding maps and tolerances", "why_tests_cant": "Patterns and objects nest and share parts without bound, and a value bound at one place is compared at all others.", "anchors": ["r_exec/binding_map.cpp:BindingMap::match,BindingMap::match_atom,BindingMap::match_structure,BindingMap::match_object,UnboundValue::match,AtomValue::match,StructureValue::match,ObjectValue::match"]}
{"id": "C82", "title": "An object is an instance of its abstraction", "statement": "Abstracting an object (abstract_object) ends. It changes no object there is and no variable there is; new objects and variables come after the others. In the pattern, variables stand for the entities and values of the object and are bound to them, ontologies and device functions are kept, confidence and salience are left open, and the object is an instance of the pattern. No two variables have the same entity, or values that are equal, if that was so before. A fact abstracted in step (force_sync), when there are variables for the timings, gets these for its times.", "quantifier": "all finite objects without variables or wildcards, binding maps and tolerances", "why_tests_cant": "Objects nest without bound, and each variable found or made has to serve the objects abstracted before.", "anchors": ["r_exec/binding_map.cpp:BindingMap::abstract_object,BindingMap::abstract_fact,BindingMap::abstract_member,BindingMap::get_atom_variable,BindingMap::get_structure_variable,BindingMap::get_object_variable,AtomValue::contains,StructureValue::contains,ObjectValue::contains"]}
{"id": "C83", "title": "A new composite state covers what was observed together once", "statement": "When no instance of a composite state has an observation as a part, a state is assembled from it and the inputs synchronous with it (make_f_icst), provided some other plain fact among these is part of no instance among these. It has at least two patterns, the first of which is that of the observation. A plain fact is in it exactly if it is synchronous and no instance that is synchronous has it as a part; an instance none of whose parts was observed is left out; nothing is in it twice. The inputs looked at are not tried again, no memory outside the arrays is written, and the instance made is found again for each of its components.", "quantifier": "all observations and lists of inputs without duplicates", "why_tests_cant": "Which facts are covered depends on how instances overlap, and on their positions among the inputs.", "anchors": ["r_exec/pattern_extractor.cpp:_TPX::make_f_icst,_TPX::filter_icst_components,_TPX::build_cst,_TPX::find_f_icst_component", "r_exec/factory.cpp:_Fact::match_timings_sync"]}
{"id": "C84", "title": "The pattern found for a component of an instance is the one it was matched with", "statement": "Looking for an observation in an instance of a composite state (find_f_icst_component) ends; if it is a component of the instance, or of one nested in it up to the depth allowed, a pattern is returned that it was taken for when one of these instances was made; otherwise nothing is returned. No reference outside the state is read.", "quantifier": "all instances made by composite states from any stream of inputs, nested in any way, and all depths", "why_tests_cant": "Instances list their components in the order the inputs came, which tests made by hand tend to leave equal to the order of the patterns.", "anchors": ["r_exec/pattern_extractor.cpp:_TPX::find_f_icst_component,_TPX::_find_f_icst", "r_exec/factory.cpp:ICST::contains", "r_exec/cst_controller.cpp:CSTOverlay::update,CSTController::get_f_icst"]}
{"id": "C85", "title": "Structures written out are read back", "statement": "Source text written from structures (RepliStruct::print, each on a line) is read (RepliStruct::parse) as the same structures: words and strings, expressions, developments and sets, nested in any way, with their labels and tails. So no two different files are written alike.", "quantifier": "all lists of structures, of any depth and width, over all words of ASCII characters", "why_tests_cant": "Brackets, labels, tails and strings combine without bound, and the reader decides by the characters before and after.", "anchors": ["r_comp/preprocessor.cpp:RepliStruct::parse,RepliStruct::getIndent,operator<<", "r_comp/preprocessor.h:RepliStruct"]}
{"id": "C86", "title": "Reading source text ends", "statement": "Reading a text (RepliStruct::parse and parseDirective, as called by Preprocessor::process) ends, with structures or an error, within a number of steps bounded by the length of the text.", "quantifier": "all texts of ASCII characters, well formed or not", "why_tests_cant": "Texts that are not well formed have to be considered with each end of file and each state of the stream.", "anchors": ["r_comp/preprocessor.cpp:RepliStruct::parse,RepliStruct::parseDirective,RepliStruct::getIndent"]}
{"id": "C87", "title": "A macro is expanded to its body with the arguments for the parameters", "statement": "A structure with the name of a macro and as many arguments as the macro has parameters becomes the body of the macro (RepliMacro::expandMacro), with the label of the structure and each parameter, wherever it is in the body, replaced by the argument. With another number of arguments it is refused, unless the macro has no parameters: then the structure keeps its arguments and gets the name in the body.", "quantifier": "all macros with different parameters, and all structures", "why_tests_cant": "Bodies and arguments nest without bound, and names of parameters may be used in arguments.", "anchors": ["r_comp/preprocessor.cpp:RepliMacro::expandMacro,RepliStruct::findAtom,RepliStruct::clone"]}
{"id": "C88", "title": "Preprocessing writes the structures of a file with its macros expanded", "statement": "If preprocessing a file ends without error, what is written are the structures in the sections whose conditions hold (!ifdef, !ifundef, !else, !endif), in order; each comes from the one in the file by replacing uses of the macros of the file by their expansions (C87), and no use of a macro is left after its definition.", "quantifier": "all files of structures, definitions of macros, directives for the compiler and conditions", "why_tests_cant": "Macros use macros in bodies and arguments, several passes are made, and what was defined in one is there in the next.", "anchors": ["r_comp/preprocessor.cpp:RepliStruct::process,Preprocessor::process,RepliCondition::isActive"]}
{"id": "C89", "title": "Classes have the same opcode under their name and in the tables", "statement": "After a file is read (Preprocessor::initialize), all classes, operators and functions it defines are in class_names_, operator_names_ and function_names_. The class filed under an opcode (classes_by_opcodes_) is the one found under its name (classes_), and its atom has that opcode; an operator or function at a place of operator_names_ or function_names_ is found under its name with an atom for that place.", "quantifier": "all files for which reading ends, with any templates and instances of them", "why_tests_cant": "Opcodes are given out by nested instantiations of templates, as many as there are in the file.", "anchors": ["r_comp/preprocessor.cpp:Preprocessor::initialize,Preprocessor::instantiateClass,Preprocessor::getMember", "r_comp/segments.h:Metadata", "r_code/atom.cpp:Atom::Object,Atom::SSet"]}
{"id": "C90", "title": "A class has the members written in its definition, templates standing for theirs", "statement": "Reading a file of definitions (Preprocessor::initialize) with different names ends. A class gets the members of its definition in order, with name, type and way of being read; the use of a template stands for the members of the template with those of its arguments in the places marked :~, and in an argument for a set with these members, whose class is filed as well. The atom of a class has the number of members and the kind that goes with its name; those made from _obj, _grp or _fact are system classes. Operators have their number of arguments and return type.", "quantifier": "all files of definitions of classes, sets, templates, operators and functions, in any order in which templates come before their use", "why_tests_cant": "Templates are used in templates and in arguments without bound, each with places of its own.", "anchors": ["r_comp/preprocessor.cpp:Preprocessor::initialize,Preprocessor::getMember,Preprocessor::getMembers,Preprocessor::instantiateClass,Preprocessor::isTemplateClass,Preprocessor::isSet,Preprocessor::getReturnType"]}
{"id": "C91", "title": "Compiled code reads as the source", "statement": "A source whose objects use their classes as these are defined compiles (Compiler::compile), and each object gets code that reads as its text: following the pointers from the members gives the numbers, times, strings and other values written there, the structures and sets with their heads and parts, pointers to the objects that the names refer to, the same variable for the same name and different ones for different names, assignments to the variables used as labels, and wildcards for what a final :: leaves out. The same holds for its views.", "quantifier": "all classes, and all sources of objects that fit 4096 words, with fewer than 256 variables and elements in a set", "why_tests_cant": "Expressions and sets nest without bound, each writes its parts behind what was written so far, and sets are read twice.", "anchors": ["r_comp/compiler.cpp:Compiler::compile,Compiler::read_sys_object,Compiler::expression,Compiler::expression_tail,Compiler::set,Compiler::set_element_count,Compiler::read_any,Compiler::read_expression,Compiler::read_set,Compiler::read_variable,Compiler::read_reference,Compiler::read_number,Compiler::read_string", "r_comp/class.h:Class"]}
{"id": "C92", "title": "Ill-typed sources do not compile", "statement": "When a source compiles (Compiler::compile succeeds), every object is of a class of objects and has no label of an earlier object; every expression has all the members of its class or ends with ::, which only stands where variables may be; every member is what the class says it is: a number, a time, a string, an expression of the class named there, a set of it, and so on, or a variable, a wildcard where these may be, a name that was written before, an object of that class; operators stand only where their results may be; sets by class have elements of that class, structured sets as many as the class has members; and the views are sets of the class of views that the object has.", "quantifier": "all classes, and all sources, of any size", "why_tests_cant": "Sources and classes nest without bound, and readers are tried one after the other with and without writing; a test can only try some mistakes in some places.", "anchors": ["r_comp/compiler.cpp:Compiler::compile,Compiler::read_sys_object,Compiler::expression,Compiler::expression_tail,Compiler::set,Compiler::read_any,Compiler::read_expression,Compiler::read_set,Compiler::read_reference,Compiler::read_number,Compiler::read_wildcard,Compiler::read_tail_wildcard", "r_comp/class.h:Class"]}
{"id": "C93", "title": "Labels of decompiled objects tell them apart", "statement": "When a decompiler decompiles images (Decompiler::decompile), then for every image it reports the number of objects and gives every object a label: the name that the user gave to it, or one that begins with the name of its class. Different objects of an image have different labels, and an object is referred to by its label wherever other objects refer to it. This is so for every image that is decompiled, whatever was decompiled before.", "quantifier": "all sequences of images of fewer than 65536 objects in which no two objects were given the same name", "why_tests_cant": "Made names can collide with given ones and with each other in many ways; a test of some images, each with a new decompiler, sees nothing.", "anchors": ["r_comp/decompiler.cpp:Decompiler::decompile,Decompiler::decompile_references,Decompiler::decompile_object,Decompiler::get_object_name,make_suffix", "AERA/main.cpp:main"]}
{"id": "C94", "title": "Ignoring named objects leaves out only these", "statement": "When an image is decompiled and named objects are to be ignored, then the objects that are written are exactly those to which the user gave no name, once each and in order.", "quantifier": "all images of fewer than 65536 objects", "why_tests_cant": "An object that is missing from a long listing is not noticed, and objects only go missing for large identifiers.", "anchors": ["r_comp/decompiler.cpp:Decompiler::decompile,Decompiler::decompile_references,Decompiler::decompile_object", "r_comp/decompiler.h:named_objects_"]}
{"id": "C95", "title": "Decompiled objects compile to the same again", "statement": "When the objects that a source was compiled to are decompiled, the decompiler writes a source, and that source compiles to objects that read as the same trees as before: the same heads, the same elements in the same order, the same times, strings, sets, references to objects, variables (up to their names), assignments and views.", "quantifier": "all sources that mean something, all classes and tables that name them, all objects that read as the meaning, labels that are different from each other and from names of classes and variables; times relative to zero, numbers written in full", "why_tests_cant": "Decompiler and compiler each have their own branch for every kind of element, and state (sets in a line, in a model, in a guard) that is carried from one element to the next; a listing looks right although it is not read back as it was.", "anchors": ["r_comp/decompiler.cpp:Decompiler::decompile_object,Decompiler::write_any,Decompiler::write_set,Decompiler::write_view,Decompiler::write_hlp,Decompiler::write_icmd,Decompiler::write_expression_head,Decompiler::write_expression_tail", "r_comp/compiler.cpp:Compiler::compile"]}
{"id": "C96", "title": "Requests to change a group take effect at its next update", "statement": "When programs ask for changes of a group's control values (thresholds of saliency, activation and visibility, c-saliency, c-activation and their thresholds) between two updates, the next update moves each value by the mean of the changes asked for, kept within 0 and 1; a value nobody asked to change stays.", "quantifier": "all groups, all histories before, all sequences of operations between two updates, all seven values", "why_tests_cant": "There is one pair of functions per value and the update calls them one by one; a value for which the call was forgotten looks like one that no program changes.", "anchors": ["r_exec/group.cpp:Group::update,Group::reset_ctrl_values,Group::update_c_sln,Group::update_c_act", "r_exec/group.inline.cpp:Group::mod_c_act_thr,Group::set_c_act_thr,Group::mod_c_sln_thr,Group::set_c_sln_thr,Group::update_c_act_thr,Group::update_c_sln_thr"]}
{"id": "C97", "title": "Controllers are active exactly when their views are", "statement": "After each update of a group, the controller of a program, composite state or model is active exactly if its view's activation is above the group's threshold and the group is c-active and c-salient (views injected after the planned time of the update apart).", "quantifier": "all groups, all histories of loading, injections, requests, invalidations and updates, any order in which the compiler evaluates arguments", "why_tests_cant": "Activation is edge-triggered (gain, loss) from the state before and after, in four combinations with the state of the group; a missed edge is never made up for, and what is missed depends on thresholds changing at the same time, and on the compiler.", "anchors": ["r_exec/group.cpp:Group::update,Group::_update_activation,Group::inject,Group::inject_existing_object,GroupState::GroupState", "r_exec/view.inline.cpp:View::update_act"]}
{"id": "C98", "title": "Groups know exactly which groups see them", "statement": "After each update of a group, the groups registered as seen by it (with their cov flag) are exactly those that have a visible view in it: a visibility above the threshold, in a group that is c-active and c-salient (views injected after the planned time and invalidated groups apart).", "quantifier": "all groups, all histories, any order in which the compiler evaluates arguments", "why_tests_cant": "The registrations are made and removed on edges, by three functions in two files; a registration that is left over shows as inputs that reach programs of a group that cannot see them, much later.", "anchors": ["r_exec/group.cpp:Group::update,Group::_update_visibility,Group::inject_group,Group::delete_view,Group::load", "r_exec/group.h:viewing_groups_"]}
{"id": "C99", "title": "Active programs get each newly salient input once per update", "statement": "In each update of a group, a program that is active is given exactly once each view that became salient in it, or is salient and of a kind that is treated as new at each update (hold, always), and it is given no other view.", "quantifier": "all groups, all histories, all views injected before the planned time of the update", "why_tests_cant": "Too few or too many reductions only show as missing or doubled productions, which depend on thresholds changing between updates.", "anchors": ["r_exec/group.cpp:Group::update,Group::_update_saliency,Group::_inject_reduction_jobs,Group::inject_reduction_jobs", "r_exec/reduction_job.h:ReductionJob"]}
{"id": "C100", "title": "Latecomers get the inputs of the period", "statement": "A program that is injected into a group between two updates, with an activation above the threshold, is given the same inputs in the same order as a program that has been active since the last update was given in this period.", "quantifier": "all groups, all histories before, all injections and requests since the last update", "why_tests_cant": "The set of inputs of a period is kept apart from the jobs made for them, by each of the functions that inject; a program that misses one input of the past behaves like one that was slow.", "anchors": ["r_exec/group.cpp:Group::inject,Group::inject_group,Group::inject_existing_object,Group::update", "r_exec/pgm_controller.cpp:PGMController::take_input", "r_exec/group.h:newly_salient_views_"]}
{"id": "C101", "title": "One signalling job for each activation", "statement": "In each update of a group, one signalling job is pushed for each anti-program and each input-less program whose controller becomes active in it, and none for any other.", "quantifier": "all groups, all histories, all views of anti-programs and input-less programs", "why_tests_cant": "Each job reschedules itself, so that a second one doubles the firing of the program from then on, without any error.", "anchors": ["r_exec/group.cpp:Group::update,Group::_update_activation,Group::_initiate_sig_job", "r_exec/view.inline.cpp:View::update_act"]}
{"id": "C102", "title": "Devices inject the facts they are asked to", "statement": "Memory's inject_marker_value_from_io_device(obj, prop, val, after, before, sync_mode, group) injects, for each of its forms (number, object, list of numbers, list of objects, structure, text), a fact of certainty one that attribute prop of obj has the value val from after to before, in a view of the group with saliency one, the given mode and the time of injection `after`. Without an object or an attribute nothing is injected.", "quantifier": "all objects, attributes, values, times, modes and groups", "why_tests_cant": "A word out of place in the marker, the fact or the view is not seen until some model fails to match; the sizes at which a field overflows are not among the few tried.", "anchors": ["r_exec/mem.cpp:_Mem::inject_marker_value_from_io_device", "r_exec/factory.cpp:_Fact::_Fact", "r_exec/view.inline.cpp:View::init"]}
{"id": "C103", "title": "The record of a command", "statement": "When a program sends a command to a device at time now, it records a fact over an interval that begins now or later and ends with the current sampling period: the fact of the command that the device says it executed, which is injected, or, if it says none, the absence of the command sent.", "quantifier": "all times, time references, sampling periods, tolerances, commands and answers", "why_tests_cant": "Whether the interval is empty depends on the phase of the sampling period at which the command is sent and on the tolerance.", "anchors": ["r_exec/pgm_overlay.cpp:InputLessPGMOverlay::inject_productions"]}
{"id": "C104", "title": "The test environment answers with what it did", "statement": "After any history, the answer of the test environment to a command (set_velocity_y, set_force_y, move_y_plus, move_y_minus) is null and nothing was changed, or is a command that was executed as it says; a force put on the cart is never beyond 20.", "quantifier": "all histories of commands and ticks, all commands", "why_tests_cant": "The answer depends on the object met first, on a pending step and on the place of the hand; a wrong answer becomes a wrong fact from which models are learnt.", "anchors": ["AERA/test_mem.cpp:TestMem::eject", "AERA/test_mem.h:TestMem"]}
{"id": "C105", "title": "The hand goes where it is told to", "statement": "In the test environment the place of the hand reported at a tick differs from the last by at most one; the hand is, or is about to be, where the accepted steps have put it; and an accepted step is reported from four tenths of a sampling period after the command on.", "quantifier": "all histories of commands and ticks", "why_tests_cant": "Whether a pending step is dropped or doubled depends on the times of commands and ticks.", "anchors": ["AERA/test_mem.cpp:TestMem::eject,TestMem::on_time_tick"]}
{"id": "C106", "title": "What the test environment injects", "statement": "At each tick the test environment injects values for the sampling period from now on: the velocity and the force last set, the places; and, in the first 3.7 seconds, a goal for a step of the hand in the next period, up at the first place and down at the last. No interval ends before it begins.", "quantifier": "all histories of commands and ticks, all times, sampling periods and tolerances", "why_tests_cant": "The intervals depend on times that differ in each run.", "anchors": ["AERA/test_mem.cpp:TestMem::on_time_tick,TestMem::on_diagnostic_time_tick"]}
{"id": "C107", "title": "The eye stays on the screen, and says how far it went", "statement": "After any history the eye of the screen device and the eight points around it are on the screen. A command to move the eye moves it as far as the screen allows, and is answered with a command that tells by how much.", "quantifier": "all histories of commands and ticks, all displacements", "why_tests_cant": "The edges are reached by sums of displacements, and the answer is built differently at the edge.", "anchors": ["AERA/IODevices/video_screen/video_screen.cpp:VideoScreen::move_eye", "AERA/IODevices/video_screen/video_screen_io_device.cpp:VideoScreenIoDevice::eject"]}
{"id": "C108", "title": "The eye sees what is there", "statement": "At a tick the screen device injects, for the eye it was told of and for the sampling period from now on, the pattern named after the points lit around the eye; it does so at each tick that is more than eight tenths of a period after the last, and at no other.", "quantifier": "all histories of commands and ticks, all times", "why_tests_cant": "There are 512 patterns, found by name in the seed, and 3844 places of the eye.", "anchors": ["AERA/IODevices/video_screen/video_screen.cpp:VideoScreen::load,VideoScreen::get_fovea_pattern", "AERA/IODevices/video_screen/video_screen_io_device.cpp:VideoScreenIoDevice::on_time_tick"]}
{"id": "C109", "title": "What focus passes on", "statement": "When the auto-focus program gets an input, each of its output groups gets it exactly once if it is relevant and not at all otherwise. It is relevant if everything is passed through, or if it has a value in common with an open goal or prediction, matches one that leaves something open, or has a value in common with what matched it before. What a group gets is the input: the same fact, or one with the same content, sign and certainty that holds now. An earlier input that was kept back, is not older than the time horizon and becomes relevant through this one is sent too, once; nothing else is.", "quantifier": "for all program arguments, groups, open targets, cached inputs, inputs and instants", "why_tests_cant": "Which targets are open, what was cached before, and how bindings overlap vary without bound; a test has one arrangement of targets and does not compare the certainty and interval of what is passed on.", "anchors": ["r_exec/auto_focus.cpp:130-286", "r_exec/auto_focus.cpp:377-413", "r_exec/pattern_extractor.cpp:100-192", "r_code/time_buffer.h:100-160"]}
{"id": "C110", "title": "Focus sends an input once", "statement": "Over the whole life of an auto-focus program, an input is sent to each output group at most once, and what was never given to it is never sent.", "quantifier": "for all program arguments, and all histories of reductions, outcomes, states and inputs with distinct views", "why_tests_cant": "That an input is kept back at one time and recalled at another, by any of any number of targets, is a matter of histories.", "anchors": ["r_exec/auto_focus.cpp:272-413", "r_exec/pattern_extractor.cpp:147-192"]}
{"id": "C111", "title": "Goals and predictions are learned from once, at their outcome", "statement": "A learning job is started for a goal exactly when it succeeds, and for a prediction exactly when it fails, if that kind of learning is on, the target was produced by a model that used no weak requirement and it had no outcome since; one job for each such outcome. A successful prediction is told once to every open goal of that kind.", "quantifier": "for all histories of an auto-focus program and every next event", "why_tests_cant": "Targets are produced repeatedly, by several models, and settled at any time in between; tests show one goal with one outcome.", "anchors": ["r_exec/auto_focus.cpp:256-270", "r_exec/auto_focus.cpp:305-375", "r_exec/auto_focus.h:158-173", "r_exec/pattern_extractor.cpp:555-580", "r_exec/pattern_extractor.cpp:791-806"]}
{"id": "C112", "title": "A repeated observation is watched until something is said of it", "statement": "When an observation that is repeated or is to hold is passed on and changes are to be learned from, one watch is set on it, for two periods or one. Whatever the watch is given, in whatever order its jobs run, its effects are those due to the first valid input that says something of the watched fact: it ends if the next value was predicted; if the fact is confirmed it ends, and a repeated one is invalidated; if the fact changed, it ends and the change is learned from, and a fact that was to hold is invalidated together with its source. Before that nothing happens but that possible causes are kept, newest first; afterwards nothing more happens.", "quantifier": "for all watches, all inputs given and all schedules of the jobs", "why_tests_cant": "Jobs run on other threads, later than the inputs are given; tests see one interleaving.", "anchors": ["r_exec/ast_controller.tpl.cpp:85-165", "r_exec/ast_controller.cpp:88-148", "r_exec/pattern_extractor.cpp:1006-1015", "r_exec/auto_focus.cpp:169-215"]}
{"id": "C113", "title": "A model predicts what its requirements allow, once", "statement": "From an input that matches its left-hand side a model predicts its right-hand side, once for each distinct way of binding it that the requirements in force give (or once, as the input binds it, if there are none), exactly when these allow it, the guards hold, its confidence (that of the input times the success rate of the model) exceeds the saliency threshold of its group, and the predicted time is not past. A prediction made from a simulated prediction belongs to the same simulations, and is bound by the requirements of a simulation that allow it; other predictions belong to none.", "quantifier": "for all models, inputs, arithmetics, guards, contents of the requirement caches and instants", "why_tests_cant": "Requirements come and go at any time and in any number, in reality and in each simulation; a test has one requirement of one kind.", "anchors": ["r_exec/mdl_controller.cpp:111-231", "r_exec/mdl_controller.cpp:1584-1757", "r_exec/hlp_controller.cpp:191-204"]}
{"id": "C114", "title": "Predictions are followed to their outcome", "statement": "Every prediction that a model makes from an actual input is notified and followed by one monitor for which failures count. Predictions not made for lack of confidence or because a requirement forbids them are followed by monitors for which they do not. Predictions made from predictions are not followed. A requirement is held to account for a prediction exactly if that prediction is followed.", "quantifier": "for all models that are no requirements, inputs, requirement caches and instants", "why_tests_cant": "What is registered but never followed shows only as memory growing and as requirements not being rated.", "anchors": ["r_exec/mdl_controller.cpp:1096-1100", "r_exec/mdl_controller.cpp:1653-1692"]}
{"id": "C115", "title": "The secondary group sees which models fire", "statement": "When chaining is allowed for an actual input and the predicted time is to come, the instance of the model is shown to the secondary group, and to the group of the model too if the prediction is made.", "quantifier": "for all models that are no requirements, inputs, requirement caches and instants", "why_tests_cant": "No test looks at the secondary group.", "anchors": ["r_exec/mdl_controller.cpp:1684-1689", "r_exec/view.inline.cpp:115-125"]}
{"id": "C116", "title": "Requirements are handed to the model they are for", "statement": "A model whose right-hand side is an instance of another model never predicts by itself. Each way of binding it gives one production, which is notified and handed to the controller of the other model together with whether its own requirements allowed it; if they did not, it has no confidence and is made for actual inputs only. That controller keeps it once, positive and negative, actual and simulated ones apart, hands those that are not simulated to its secondary controller, and wakes what waits for a requirement if it is positive.", "quantifier": "for all requirement models, inputs, requirement caches and instants", "why_tests_cant": "Four caches, two controllers and simulations combine; tests have positive actual requirements.", "anchors": ["r_exec/mdl_controller.cpp:1623-1651", "r_exec/mdl_controller.cpp:1492-1572", "r_exec/mdl_controller.cpp:2810-2819"]}
{"id": "C117", "title": "What rests on a defeated requirement is withdrawn", "statement": "What a simulation draws from a weak requirement, of a model that has strong ones too, depends on it: the prediction and the instance of the model alike, besides all that the input depends on. A strong requirement that is predicted later in a simulation withdraws what was drawn there from the weak requirements it contradicts and is at least as certain as.", "quantifier": "for all models, simulated inputs, cached requirements, and strong requirements in any number of simulations", "why_tests_cant": "It takes a strong requirement that arrives after the weak one was used in the same simulation, and looking at everything drawn from it.", "anchors": ["r_exec/mdl_controller.cpp:1513-1545", "r_exec/mdl_controller.cpp:1694-1735", "r_exec/factory.cpp:550-556"]}
{"id": "C118", "title": "Secondary models only watch", "statement": "A model in the secondary group shows nothing to anyone and makes no prediction; it watches, for each way to bind it, whether what it would predict comes true, without counting failures. If it is a requirement, it hands over its production together with whether its own requirements allowed it.", "quantifier": "for all models, inputs and requirement caches", "why_tests_cant": "The effects are silent by design.", "anchors": ["r_exec/mdl_controller.cpp:241-298", "r_exec/mdl_controller.cpp:2786-2808"]}
{"id": "C119", "title": "Goals are pursued through the models that lead to them", "statement": "A goal that is not simulated, given to a model whose right-hand side or instance it matches, or whose right-hand side contradicts it, becomes a goal for the left-hand side of the model, or for its absence, if the requirements of the model allow it to fire and its guards hold: followed until its end, and shown with a notification, unless it is predicted already with more confidence, in which case it is only followed, or a fact, in which case nothing is done. If the requirements do not allow it, the instance of the model becomes a goal, followed until the end of the original one. Nothing is done if the confidence does not exceed the threshold, or the model cannot fire in time.", "quantifier": "for all models, goals, requirement caches, evidences and instants", "why_tests_cant": "Each effect depends on the state of requirement caches, on what is known and on the guards; tests follow one plan that succeeds.", "anchors": ["r_exec/mdl_controller.cpp:1838-2060", "r_exec/mdl_controller.cpp:2200-2285"]}
{"id": "C120", "title": "What is made for a goal lives as long as its target", "statement": "Whatever a model makes for a goal, at once or when a requirement arrives, is made for a time that is to come, and is given the resilience that corresponds to the time until then.", "quantifier": "for all models, goals, simulated or not, requirement caches and instants", "why_tests_cant": "A goal that dies early just is not pursued; a test sees it only if it knows the period and the instant of the injection.", "anchors": ["r_exec/mdl_controller.cpp:1976-1992", "r_exec/mdl_controller.cpp:2031-2040", "r_exec/mdl_controller.cpp:2322-2352"]}
{"id": "C121", "title": "Simulated goals stay in their simulation", "statement": "A goal that is simulated makes a model simulate its left-hand side, or its instance, in one simulation below the one of the goal: with the same root, less time, the same solution, mandatory if the goal was or is gone against; a mandatory goal is not gone against again. A command is predicted instead, when half the remaining time is left at the earliest, and the instance becomes a simulated goal besides. Nothing is simulated twice in a simulation. A branch that arrives at what is known reports it. At the end of the time the left-hand side is predicted, as the guards make it.", "quantifier": "for all models, goals, simulations, requirement caches, evidences and instants", "why_tests_cant": "The simulations branch with every model; whether one leaks into another or is cut off cannot be seen from the plan that is chosen in the end.", "anchors": ["r_exec/mdl_controller.cpp:1838-1975", "r_exec/mdl_controller.cpp:2062-2200"]}
{"id": "C122", "title": "Waiting for a requirement ends as it should", "statement": "When a requirement arrives for a goal that was waiting for it, the model makes of the goal what it would have made had the requirement been there, and waits no longer; if the requirement does not allow it, or the guards fail, it goes on waiting. In a simulation the left-hand side is predicted in the simulations of the requirement, depends on what the requirement depends on, and on the requirement itself if a strong one could defeat it. Whatever the requirements of the model are, this is free of undefined behaviour.", "quantifier": "for all models, goals, requirement caches, evidences and pairs of instants", "why_tests_cant": "Equality of two effects at different times for every state of the caches; and tests have models with weak requirements.", "anchors": ["r_exec/mdl_controller.cpp:2243-2320", "r_exec/mdl_controller.cpp:2122-2181"]}
{"id": "C123", "title": "A command is simulated once and stands with its reasons", "statement": "However many requirements arrive in a simulation that allow the same command, it is predicted once; the prediction stands as long as everything that one of these requirements depends on stands, and falls when none has all it depends on.", "quantifier": "for all sequences of requirements in a simulation, and all sets of withdrawn validities", "why_tests_cant": "It is about all subsets of the validities that may be withdrawn, after all sequences of arrivals.", "anchors": ["r_exec/mdl_controller.cpp:2129-2181", "r_exec/mdl_controller.cpp:2308-2316"]}
{"id": "C124", "title": "The plan that is carried out is the best that does no harm", "statement": "When the simulation for a goal is over, all simulations that led to the outcome of a goal are stopped and no other. If one that must be carried out makes a goal fail that is stronger than the one monitored, no plan is carried out. Otherwise those that must be carried out are, and of those that may be the one that is most confident and due soonest, among those which make a goal succeed, are not withdrawn and make no stronger goal fail; each once, for the goal it is a solution of and with the confidence of the goal monitored.", "quantifier": "for all simulations, sequences of simulated outcomes each in one simulation, invalidations, strengths and instants", "why_tests_cant": "Which plan is chosen depends on all outcomes that came in, in any order, and on what was withdrawn meanwhile; a test has one plan.", "anchors": ["r_exec/g_monitor.cpp:112-265", "r_exec/g_monitor.cpp:283-297", "r_exec/factory.h:580-584"]}
{"id": "C125", "title": "Carrying out a plan is pursuing its goal", "statement": "Committing to the solution of a goal has the effects that the goal would have if it were given to the model, whose solution it is, without simulation.", "quantifier": "for all models, simulated goals, requirement caches, evidences and instants", "why_tests_cant": "Two paths through the code are compared in every state.", "anchors": ["r_exec/mdl_controller.cpp:1979-2014", "r_exec/mdl_controller.cpp:1838-1900"]}
{"id": "C126", "title": "Plans that harm stronger goals are stopped", "statement": "When the time for a simulated goal is over, those simulations, optional and mandatory, are stopped in which a goal fails that is stronger, and no other.", "quantifier": "for all simulations, sequences of simulated outcomes each in one simulation, invalidations, strengths and instants", "why_tests_cant": "It takes several simulations that all do harm at the same time.", "anchors": ["r_exec/g_monitor.cpp:487-523"]}
{"id": "C127", "title": "Drives are pursued", "statement": "A drive given to a top-level model that it concerns, with a confidence above the threshold and guards that hold, has its outcome shown in the group of the drives if the left-hand side of the model is known; otherwise the left-hand side becomes a goal, followed until its end and simulated first if there is time, and shown once in the group of the model, with notifications in its output groups, unless it is predicted with more confidence. What is shown lives until the end of the goal; the group of the drives is told outcomes of drives and nothing else. Otherwise nothing is done.", "quantifier": "for all top-level models, drives, evidences and instants", "why_tests_cant": "What is done depends on all that is known or predicted; that a group is not told something, or that a goal lives long enough, is not visible in a run that succeeds.", "anchors": ["r_exec/mdl_controller.cpp:1271-1377", "r_exec/mdl_controller.cpp:1165-1181", "r_exec/hlp_controller.cpp:156-167", "r_exec/hlp_controller.cpp:300-309", "r_exec/mdl_controller.h:385"]}
{"id": "C128", "title": "The outcome of a drive's goal is told", "statement": "When a goal made for a drive ends, its success or failure is shown in every output group of the model but the last, together with the evidence, or, if it failed without one, with the absence of its target; the last output group, which is that of the drives, is told the outcome of the drive; nothing else is shown.", "quantifier": "for all top-level models, goals, outcomes and instants", "why_tests_cant": "It is about all numbers of output groups, and about what is not shown.", "anchors": ["r_exec/mdl_controller.cpp:1380-1448", "r_exec/factory.cpp:676-686"]}
{"id": "C129", "title": "A drive has one outcome", "statement": "However many models pursue a drive, its outcome is shown once at most, and for a reason: it was known when the drive came, or for one of the goals made for it there was an evidence, a counter-evidence, or its time was over. If a goal made for a drive has run its course and nobody has stopped the drive, the outcome is shown.", "quantifier": "for all sequences of drives, inputs and timers, at any number of models and cores", "why_tests_cant": "It quantifies over all interleavings of the monitors of all models that pursue a drive.", "anchors": ["r_exec/mdl_controller.cpp:1271-1377", "r_exec/mdl_controller.cpp:1380-1448", "r_exec/g_monitor.cpp:265-380"]}
{"id": "C130", "title": "What explains a fact is assumed", "statement": "A strong model that is no requirement, command or reuse of another model assumes its left-hand side, or the contrary, once, exactly when an actual fact is its right-hand side, or the contrary, and the fact is neither its left-hand side nor something it predicted or has a goal for, its timings, requirements and guards allow it, and the confidence, which becomes that of the assumption, exceeds the threshold; the assumption lives until its end.", "quantifier": "for all models, inputs, requirement caches, states and instants", "why_tests_cant": "That nothing is assumed is invisible, and whether something should be depends on all monitors and requirements of the model.", "anchors": ["r_exec/mdl_controller.cpp:1760-1835", "r_exec/mdl_controller.cpp:2576-2650"]}
{"id": "C131", "title": "A model takes nothing from its own assumptions", "statement": "What a model assumed itself makes it predict nothing, pursue nothing, confirm nothing and assume nothing, however often it becomes an input.", "quantifier": "for all sequences of inputs and invalidations", "why_tests_cant": "It takes an assumption that becomes salient again after any number of others.", "anchors": ["r_exec/mdl_controller.cpp:1766-1783", "r_exec/mdl_controller.cpp:2645-2648", "r_exec/group.cpp:668-690"]}
{"id": "C132", "title": "Assumptions do not rate models", "statement": "An actual evidence for or against a prediction changes the success rate of the models behind it; an assumption does not.", "quantifier": "for all models, inputs and confidences", "why_tests_cant": "It must hold of all confidences, and of facts that differ in nothing but where they come from.", "anchors": ["r_exec/mdl_controller.cpp:2356-2384", "r_exec/p_monitor.cpp:112-157", "r_exec/mdl_controller.cpp:2608-2650"]}
{"id": "C133", "title": "Causes of changes are tried", "statement": "When an observed value changes, each fact at hand that may be the cause is tried as the left-hand side of a new model, in the order of arrival, and no other fact is: facts that came before the new observation and not together with the old one, have a value in common with one of the two or are instances of a model that has their difference among its values, and from which the change can be computed if the values are numbers.", "quantifier": "for all sets of facts, changes, known models and histories of states made on the way", "why_tests_cant": "The facts tried depend on the states that were made for facts tried before, so that it must hold of all orders and all overlaps.", "anchors": ["r_exec/pattern_extractor.cpp:1028-1155", "r_exec/pattern_extractor.cpp:1338-1440", "r_exec/pattern_extractor.cpp:285-374"]}
{"id": "C134", "title": "Reasons for successes are tried", "statement": "When a goal succeeds that was not predicted to, each fact at hand that came before the evidence and not together with the goal is tried as the left-hand side of a new model, by itself or in the state of one that was tried, and no other; nothing undefined happens. If the success was predicted, nothing is tried.", "quantifier": "for all sets of facts, goals, evidences and known models", "why_tests_cant": "Facts are left out once they are part of a state, and states depend on all facts that overlap.", "anchors": ["r_exec/pattern_extractor.cpp:625-780", "r_exec/pattern_extractor.cpp:285-374"]}
{"id": "C135", "title": "Reasons for failures are tried", "statement": "When a prediction fails, each fact at hand that came before the model was used and has a value in common with its instance, or has attribute and value in common with such a fact, is tried as the left-hand side of a new model, by itself or in the state of one that was tried, and no other; nothing undefined happens.", "quantifier": "for all sets of facts, failures and known models", "why_tests_cant": "Facts are left out once they are part of a state, and states depend on all facts that overlap.", "anchors": ["r_exec/pattern_extractor.cpp:806-975", "r_exec/pattern_extractor.cpp:285-374"]}
{"id": "C136", "title": "What is learned is news", "statement": "The models sent in one round of learning are new: none was known or black-listed, none is sent twice, and all are known afterwards; nothing that was known is forgotten. A requirement is sent only if its model is known. A state is sent with models that are about it and before them, models are about states that were there or are sent with them, and no state is sent twice.", "quantifier": "for all kinds of learning, sets of facts, known and black-listed models", "why_tests_cant": "What is known changes with each model sent, so that it must hold of all sequences of attempts.", "anchors": ["r_exec/pattern_extractor.cpp:285-309", "r_exec/pattern_extractor.cpp:496-535", "r_exec/pattern_extractor.cpp:1382-1440", "r_exec/model_base.cpp:280-391"]}
{"id": "C137", "title": "A model that nothing matches sleeps until its context returns", "statement": "When an active model meets an input that does not match and nothing has matched it for the primary horizon, then from the next updates of its groups on it is inactive in its primary group and active in its secondary group, from where a success brings it back.", "quantifier": "all models, thresholds, horizons and histories", "why_tests_cant": "Needs hours of idleness, and then a situation in which the model would have worked.", "anchors": ["r_exec/mdl_controller.cpp:PrimaryMDLController::check_last_match_time,PrimaryMDLController::reduce", "r_exec/group.cpp:Group::_update_activation", "r_exec/controller.h:Controller::lose_activation"]}
{"id": "C138", "title": "A model is put aside or forgotten only after a horizon of idleness", "statement": "An input that does not match makes a model leave its primary group only if, for the primary horizon, it was active there and nothing matched; it is forgotten only if the same holds of its secondary group and the secondary horizon.", "quantifier": "all models, thresholds, horizons and histories", "why_tests_cant": "Depends on when the model last became active, not only on its matches.", "anchors": ["r_exec/mdl_controller.cpp:PrimaryMDLController::check_last_match_time,SecondaryMDLController::check_last_match_time,SecondaryMDLController::reduce", "r_exec/hlp_controller.cpp:HLPController::HLPController"]}
{"id": "C139", "title": "A killed model is gone", "statement": "Once one of the two controllers of a model has been killed, for whatever reason, after the next updates both views have left their groups, neither controller takes inputs, and the model base does not take the model for a known one: it is refused if it failed and can be learned again if not.", "quantifier": "all histories and all reasons for killing", "why_tests_cant": "Every combination of reason, group and time of the updates counts.", "anchors": ["r_exec/mdl_controller.cpp:PrimaryMDLController::kill_views,SecondaryMDLController::kill_views", "r_exec/hlp_controller.cpp:HLPController::become_invalidated,HLPController::is_orphan", "r_exec/model_base.cpp:ModelBase::register_mdl_failure,ModelBase::register_mdl_timeout"]}
{"id": "C140", "title": "What is built on a killed model or state is killed", "statement": "When models and states have been handed enough inputs for no input to kill any of them, one of them is dead exactly if it, or something it is built on, however indirectly, was killed; as many rounds of inputs as there are controllers are enough.", "quantifier": "all dependencies between models and states and all histories", "why_tests_cant": "Unbounded chains of dependencies, in any order of inputs.", "anchors": ["r_exec/hlp_controller.cpp:HLPController::become_invalidated,HLPController::invalidate", "r_exec/mdl_controller.cpp:MDLController::MDLController"]}
{"id": "C141", "title": "A program carries out all its productions or none", "statement": "When a program fires and one of its productions cannot be evaluated or executed, none of its commands has any effect; otherwise all of them are carried out, in order, on the objects they name, without undefined behaviour.", "quantifier": "all programs, productions and commands", "why_tests_cant": "The failing command may be any of any number, of any kind.", "anchors": ["r_exec/pgm_overlay.cpp:InputLessPGMOverlay::inject_productions"]}
{"id": "C142", "title": "The notification of a reduction reports what was done", "statement": "When a program that asks for notifications has fired, each notification group gets a marker with the program, its inputs and exactly the injections, ejections and device commands carried out, in order, each in full and the latter with their facts; no marker is sent if there are none of these.", "quantifier": "all programs and productions", "why_tests_cant": "All mixtures and orders of commands of every kind.", "anchors": ["r_exec/pgm_overlay.cpp:InputLessPGMOverlay::inject_productions,PGMOverlay::get_mk_rdx,InputLessPGMOverlay::get_mk_rdx"]}
{"id": "C143", "title": "A device command becomes a fact of when it was executed", "statement": "Each command of a program that a device carries out gives one fact, injected into the stdin group, of what the device carries out, which holds from when it was executed (not before twice the time tolerance into the sampling frame) to the end of that frame; a command the device refuses gives no fact; there are no other such facts.", "quantifier": "all commands, times, sampling periods and tolerances below half the period", "why_tests_cant": "The statement is about all times and all values of the parameters.", "anchors": ["r_exec/pgm_overlay.cpp:InputLessPGMOverlay::inject_productions"]}
{"id": "C144", "title": "mod and set take effect on the value they name", "statement": "A mod or set executed by a program changes the value it names, by or to what was asked and within [0,1]: the propagation threshold of an object at once, a control value of a view or a threshold of a group at the next update of the group; nothing else changes.", "quantifier": "all objects, views, groups, values and sequences of commands", "why_tests_cant": "Depends on the layout of the object and on everything asked between two updates.", "anchors": ["r_exec/context.cpp:IPGMContext::getMember", "r_exec/object.tpl.cpp:Object::mod,Object::set", "r_exec/group.h:Group::Mod,Group::Set", "r_exec/pgm_overlay.cpp:InputLessPGMOverlay::inject_productions"]}
{"id": "C145", "title": "Looking up a view only reads", "statement": "The operator fvw leaves in the value array the values of the view of the object in the group, and the group, and changes nothing else: the view stays in its group.", "quantifier": "all objects, groups and views", "why_tests_cant": "Use after free shows, if at all, long after the look-up.", "anchors": ["r_exec/context.cpp:IPGMContext::Fvw", "r_exec/object.tpl.cpp:Object::get_view"]}
{"id": "C146", "title": "= says whether two values are the same", "statement": "Comparing two values of a program with = gives true exactly if both are the same object, the same atom, the same timestamp, duration or string, or structures with the same head and members that are the same, however the values are pointed to.", "quantifier": "all programs, pointers, objects and values of any depth", "why_tests_cant": "Depends on the bits of raw words such as those of timestamps, and on what any number of pointers lead to.", "anchors": ["r_exec/context.cpp:95-116", "r_exec/context.cpp:173-243"]}
{"id": "C147", "title": "A skeleton matches its instances", "statement": "An input matches the skeleton of a pattern exactly if it is an instance of it, in which wildcards stand for anything, a variable for the same value wherever it occurs, and everything else for itself.", "quantifier": "all patterns and inputs of any depth", "why_tests_cant": "All combinations of variables, references and nested structures; values of raw words decide.", "anchors": ["r_exec/context.cpp:123-163", "r_exec/context.cpp:173-243"]}
{"id": "C148", "title": "An object built by a program has the members that were asked for", "statement": "The object that a program builds from an expression has the members of that expression: the same atoms, timestamps, durations and strings, references to the same objects, and structures of such.", "quantifier": "all expressions of any depth, pointers and objects", "why_tests_cant": "Layout and references depend on all that was copied before, for expressions of any shape.", "anchors": ["r_exec/context.h:110-122", "r_exec/context.h:131-323"]}
{"id": "C149", "title": "Data the environment sends become facts", "statement": "At a tick, the device for an environment reached over a network injects, for every variable of a message of data, in order, the fact that the property of the entity it names has the value sent, for one sampling period from then; nothing else is injected.", "quantifier": "all setups, histories of messages, ticks and commands, and all messages", "why_tests_cant": "What a message leads to depends on tables changed by every message before it.", "anchors": ["AERA/IODevices/TCP/tcp_io_device.cpp:TcpIoDevice::handleDataMessage", "AERA/IODevices/TCP/tcp_io_device.cpp:TcpIoDevice::handleSetupMessage", "AERA/IODevices/TCP/tcp_io_device.cpp:TcpIoDevice::load"]}
{"id": "C150", "title": "Commands reach the environment as programs send them", "statement": "If a program sends a command the environment has told of, for an entity it has told of, with values as described, then the environment gets this command with this entity and these values; and the device answers that a command was not executed exactly if it sent nothing.", "quantifier": "all setups, histories, opcodes, commands and values", "why_tests_cant": "Depends on the numbering of the opcodes and on all setups and messages before.", "anchors": ["AERA/IODevices/TCP/tcp_io_device.cpp:TcpIoDevice::eject", "AERA/IODevices/TCP/tcp_io_device.cpp:TcpIoDevice::constructMessageFromCommand", "AERA/IODevices/TCP/tcp_io_device.cpp:TcpIoDevice::getDataVec"]}
{"id": "C151", "title": "Messages are handled in order and in pace", "statement": "The messages of the environment are handled in the order they were received, each at most once, and exactly once or still waiting if the queue loses none; not less than eight tenths of the sampling period apart; and at a tick that long after the last, a waiting message is handled.", "quantifier": "all histories of messages, losses, ticks and commands", "why_tests_cant": "All interleavings of receptions, ticks and commands.", "anchors": ["AERA/IODevices/TCP/tcp_io_device.cpp:TcpIoDevice::on_time_tick", "AERA/IODevices/TCP/tcp_io_device.cpp:TcpIoDevice::handleMessage"]}
{"id": "C152", "title": "Arithmetic on vectors is done component by component", "statement": "Evaluating an expression whose operands are numbers, vectors (vec3, vec2, vec) or quaternions, nested to any depth, with the user operators add, sub, mul, div and dis, succeeds whenever the expression has a value, and leaves that value at the place of the expression: sums and differences component by component, products and quotients with a number, Euclidean distances, products and quotients of quaternions. The rest of the code, and the values computed before, stay as they are.", "quantifier": "all codes, all nestings, all dimensions, all bindings of variables, all arithmetic of floating point numbers", "why_tests_cant": "The result of an inner expression is read while that of the outer is appended to the same array; whether that goes wrong depends on the dimension, the nesting and the capacity of the array, which samples seldom reach.", "anchors": ["usr_operators/Operators/operators.cpp:add", "usr_operators/Operators/operators.cpp:sub", "usr_operators/Operators/operators.cpp:mul", "usr_operators/Operators/operators.cpp:div", "usr_operators/Operators/operators.cpp:dis", "r_exec/_context.cpp:setCompoundResultHead", "r_exec/hlp_context.cpp:HLPContext::evaluate_no_dereference"]}
{"id": "C153", "title": "A rotation is recovered from its quotient", "statement": "For rotations p and q given as unit quaternions, multiplying q by the quotient p/q, as the operators mul and div compute them, gives p or its opposite, which is the same rotation. So a model that has learnt the quotient of two orientations predicts the second from the first.", "quantifier": "all pairs of unit quaternions", "why_tests_cant": "The quotient is made of a conjugate, a product, a rounding, a choice of sign and another conjugate; the identity has to hold for a continuum of inputs, and an error of sign in one of sixteen products shows only for some of them.", "anchors": ["usr_operators/Operators/operators.cpp:mul", "usr_operators/Operators/operators.cpp:div"]}
{"id": "C154", "title": "The law of a learnt model holds of the change it was learnt from", "statement": "When a change of a value is explained by a cause, the law that is put into the new model (the new value is the old one plus an argument of the cause, times an argument, plus a constant, times a constant, or plus the cause's value times the time) holds of that very change, up to the tolerance for numbers: for numbers, vectors and quaternions. If the difference or the quotient of the values is an argument of the cause, a law is found.", "quantifier": "all values before and after, all causes (commands, instances of models, values) with any number of arguments, all tolerances, all arithmetic of floating point numbers", "why_tests_cant": "A law that fits for the values of a test may have been found for another reason: the argument chosen, the loop that found it and the tolerance all depend on the values, and a missed law shows only as a model that is not learnt.", "anchors": ["r_exec/pattern_extractor.cpp:CTPX::find_guard_builder", "r_exec/operator.cpp:OpContext::build_and_evaluate_expression", "r_exec/factory.cpp:_Fact::Match", "r_exec/factory.cpp:_Fact::MatchStructure", "r_exec/binding_map.cpp:StructureValue::copy_structure"]}
{"id": "C155", "title": "A goal for a composite state becomes goals for what is missing of it", "statement": "When the instance of a composite state is wanted, each member for which there is no evidence becomes a sub-goal of the same kind (acted upon or simulated), with its own target and a simulation below that of the goal; a member that is observed or predicted with enough confidence is not asked for again; a thing that is already a target within the simulation is left out; and to undo a state it is enough to undo one of its members.", "quantifier": "all goals, all composite states with any number of members, all knowledge of facts and predictions with any confidences and times, all overlays kept by the controller", "why_tests_cant": "Which members are missing depends on everything known at the time and on the targets of the simulation so far; a sub-goal that is not made shows only as a plan that is not found.", "anchors": ["r_exec/cst_controller.cpp:CSTController::reduce", "r_exec/cst_controller.cpp:CSTController::abduce", "r_exec/cst_controller.cpp:CSTController::abduce_simulated", "r_exec/cst_controller.cpp:CSTController::inject_goal", "r_exec/factory.cpp:Sim::register_goal_target", "r_exec/hlp_controller.cpp:HLPController::check_predicted_evidences"]}
{"id": "C156", "title": "The instance of a composite state is worth what its members are", "statement": "When all the members of a composite state have been matched, what is made is simulated if an input is, a prediction if an input is, and a fact otherwise; it is as certain as the least certain input and is shown only to the groups where that is enough; it lives until the end of the state; it belongs to the simulations of its inputs, one for each root; it rests on the predictions and the validities it was made from, and is invalidated exactly when one of its inputs is.", "quantifier": "all sequences of inputs (facts, predictions, predictions in simulations) of any confidences, simulations and validities, all groups and thresholds, all later invalidations", "why_tests_cant": "What is made depends on the mix of the inputs and on their order; a confidence or a validity that is lost shows only when something that rested on it should have been withdrawn.", "anchors": ["r_exec/cst_controller.cpp:CSTOverlay::update", "r_exec/cst_controller.cpp:CSTOverlay::inject_production", "r_exec/cst_controller.cpp:CSTController::inject_prediction", "r_exec/cst_controller.cpp:CSTController::inject_icst", "r_exec/factory.cpp:Pred::is_invalidated", "r_exec/factory.cpp:ICST::is_invalidated"]}
{"id": "C157", "title": "In a simulation what is the case is assumed to go on until a prediction tells otherwise", "statement": "When a prediction in a simulation is for a later time than what a composite state has gathered, each saved input that is no instance and of which no prediction of the simulation speaks is assumed at the time of that prediction, in the same simulation, with its own confidence and as salient as the prediction is confident; no assumption is made against what has been predicted in the simulation; while an assumption of an input stands no other is made of it; an assumption is withdrawn exactly when a prediction of the simulation that is not itself an assumption tells of it, and stands no longer than what it was assumed from.", "quantifier": "all histories of predictions arriving at overlays of any composite states, in any number of simulations, with any saved inputs, times, relations of matching and of counter-evidence", "why_tests_cant": "What is assumed depends on the order in which predictions of several simulations arrive at overlays that come and go; an assumption that should have been withdrawn only shows in a plan that does not work.", "anchors": ["r_exec/cst_controller.cpp:CSTOverlay::reduce", "r_exec/factory.cpp:Pred::Pred", "r_exec/factory.cpp:Sim::DefeasiblePromotedFact::has_original_fact", "r_exec/factory.cpp:_Fact::is_evidence", "r_exec/factory.cpp:_Fact::is_timeless_evidence", "r_exec/hlp_controller.cpp:HLPController::inject_prediction"]}
{"id": "C158", "title": "Stopping the executive returns, and then no thread of it is at work", "statement": "When stop is called, the executive comes to an end: stop never waits for a thread that will not come, each core begins at most one job more once the state has been set and then leaves its loop within a bounded number of steps; when stop has returned every reduction core and time core has left its loop and no delegate that waits for the time of a job is alive or will come to life; nothing that stop has deleted is used, and no thread waits for ever.", "quantifier": "all interleavings of any numbers of reduction cores and time cores, of jobs that push any jobs and make any delegates, of the delegates, and of the thread that stops", "why_tests_cant": "The interleavings are beyond counting, and the failing ones need a thread to be slow just while stop runs; deleted memory that is used does not always show.", "anchors": ["r_exec/mem.cpp:_Mem::stop", "r_exec/mem.cpp:_Mem::pop_reduction_job", "r_exec/mem.cpp:_Mem::pop_time_job", "r_exec/mem.cpp:_Mem::start_core", "r_exec/mem.cpp:_Mem::shutdown_core", "r_exec/reduction_core.cpp:ReductionCore::Run", "r_exec/time_core.cpp:TimeCore::Run", "r_exec/time_core.cpp:DelegatedCore::Wait"]}
{"id": "C159", "title": "A timed job is done when it is asked for, never early and never dropped", "statement": "A job given to the time cores is done only when it has been asked for, not before the time it has been asked for, and once for each time; when it is done and gives a next time, it is asked for at that time, and when it gives none it is not done again; it is not dropped while it is asked for, unless it is found dead, the executive is stopped, or it ends its core; a delay that is reported is by how much it was late.", "quantifier": "all jobs, all times they give, all readings of the clock, all times at which timers fire, at whatever step the executive is stopped", "why_tests_cant": "Whether a job is early depends on the resolution of timers and on when threads run; a job done a little early or twice shows only in what the programs and monitors it drives conclude.", "anchors": ["r_exec/time_core.cpp:TimeCore::Run", "r_exec/time_core.cpp:DelegatedCore::Wait", "r_exec/time_job.h:TimeJob", "r_exec/time_job.cpp:PerfSamplingJob::update"]}
{"id": "C160", "title": "The variables of a program's template stand for the arguments of the instance", "statement": "When an instance of a program runs, each template argument of the program stands for the argument given in the instance at that position, and each variable inside the pattern of a template argument stands for the part of the given argument that it matches; preparing the code reads nothing outside the program and its instance.", "quantifier": "all programs with any number of template arguments, whatever their patterns, and all instances whose arguments fit the patterns", "why_tests_cant": "Tests use template arguments that are plain variables; what a wrongly placed pointer reads depends on the bits of the argument and on what happens to lie after the code.", "anchors": ["r_exec/pgm_overlay.cpp:InputLessPGMOverlay::patch_tpl_args", "r_exec/pgm_overlay.cpp:InputLessPGMOverlay::patch_tpl_code"]}
{"id": "C161", "title": "ins makes the instance that is asked for, and only when the arguments fit", "statement": "The operator ins makes an instance if and only if its first operand is a program or an anti-program, its second is a set of as many arguments as the program has template patterns, and each argument fits the skeleton of its pattern, a variable standing for one value; the instance is an anti-program's, an input-less program's or a program's according to the program; it refers to that program and has the given arguments, the given run flag, time scope, resilience and notification flag, and a saliency threshold of 1.", "quantifier": "all programs, all sets of arguments of any structure, all expressions by which the operands are given", "why_tests_cant": "Arguments are arbitrary structures reached through arbitrary pointers; an instance with one wrong cell runs, and shows only in what it later matches.", "anchors": ["r_exec/context.cpp:IPGMContext::Ins", "r_exec/context.h:IPGMContext::copy_structure", "r_exec/context.cpp:IPGMContext::match"]}
{"id": "C162", "title": "The variables of a pattern stand for the parts of the input it was matched with", "statement": "Once an input has matched the skeleton of a pattern, the skeleton stands for the input, and each variable of the skeleton, at whatever depth, stands for the part of the input, or of an object that the input refers to, that it was matched with; nothing outside of the code is read.", "quantifier": "all skeletons and all inputs that are instances of them, of any structure and depth, at any place of any program", "why_tests_cant": "Guards and productions read the variables through chains of pointers that depend on where the pattern is in the program and on how the input is stored; a wrong chain yields a value of the right kind.", "anchors": ["r_exec/pgm_overlay.cpp:PGMOverlay::patch_input_code", "r_exec/pgm_overlay.cpp:PGMOverlay::dereference_in_ptr", "r_exec/pgm_overlay.cpp:PGMOverlay::__match", "r_code/atom.inline.cpp:Atom::DInObjPointer"]}
{"id": "C163", "title": "Expressions are evaluated to what their operators yield", "statement": "The evaluation of an expression in a program succeeds when its operators do, and then the expression stands for what its operator, or else the overload of the operator, yields for the values of its operands, be they constants, parts of inputs, other expressions, or variables that stand for such; it keeps this value, nothing but expressions changes in the program, and no earlier result is lost. Where an operator fails, the evaluation fails.", "quantifier": "all programs, all expressions of any depth, with any sharing of parts through variables, whatever was evaluated before; all sets of operators", "why_tests_cant": "Expressions are replaced in place by their values or by pointers to them, in an order that depends on who asks first; tests try small expressions with few results.", "anchors": ["r_exec/context.cpp:IPGMContext::evaluate_no_dereference", "r_exec/context.cpp:IPGMContext::dereference", "r_exec/_context.cpp:_Context::setTimestampResult", "r_exec/_context.cpp:_Context::setCompoundResultHead", "r_exec/operator.h:Operator::operator ()"]}
{"id": "C164", "title": "The guards of a program let it go on exactly when they hold", "statement": "When all patterns of a program are matched, its guards let it go on if and only if each of them is evaluated without failure and none of the values is false.", "quantifier": "all programs and all sets of guards, whatever was evaluated before; all sets of operators", "why_tests_cant": "Guards share parts with each other and with patterns, and are evaluated in place; tests try a few sets of guards.", "anchors": ["r_exec/pgm_overlay.cpp:PGMOverlay::check_guards", "r_exec/context.cpp:IPGMContext::evaluate"]}
{"id": "C165", "title": "The guards of a pattern let inputs through exactly when they hold", "statement": "An input that fits the skeleton of a pattern, of a program or in a reduction (red), is let through if and only if each of the guards of the pattern is evaluated without failure and none of the values is false.", "quantifier": "all programs and all sets of guards, whatever was evaluated before; all sets of operators", "why_tests_cant": "The programs at hand have patterns without guards, or guards that compute values; no test has a guard that is false.", "anchors": ["r_exec/pgm_overlay.cpp:PGMOverlay::__match", "r_exec/context.cpp:match"]}
{"id": "C166", "title": "Red makes the set of what its productions stand for", "statement": "When red has matched inputs, its result is the set of what its productions stood for, each with the input it was built for, in order; the values keep standing when the code of the program is patched for other inputs, and no earlier value is lost.", "quantifier": "all programs, all productions (structures of any depth, with pointers of all kinds), any number of inputs and productions, whatever is in the array of values", "why_tests_cant": "Productions are copied from the patched code into an array that also holds the operands and grows while it is written; what a copied pointer means depends on the array it is in. Tests try small productions of atoms.", "anchors": ["r_exec/context.cpp:IPGMContext::copy_to_value_array", "r_exec/context.cpp:IPGMContext::copy_structure_to_value_array", "r_exec/context.cpp:IPGMContext::copy_member_to_value_array", "r_exec/context.cpp:match", "r_exec/context.cpp:IPGMContext::Red"]}
{"id": "C167", "title": "Guards that are evaluated with success hold", "statement": "When the guards of a model or composite state are evaluated with success, every assigned variable has the value of its expression and every condition has a value other than false, in the resulting bindings, and variables that were bound keep their values; and the evaluation succeeds whenever there is an order in which the guards can be evaluated.", "quantifier": "all lists of guards, all expressions of any depth, all operators (partial functions), all bindings", "why_tests_cant": "What a guard does depends on which variables are bound and on the order of the guards; evaluation patches the code it reads. Tests run the guards of a few models, in the order their authors wrote them.", "anchors": ["r_exec/hlp_overlay.cpp:HLPOverlay::evaluate_guards", "r_exec/hlp_context.cpp:HLPContext::evaluate_no_dereference", "r_exec/binding_map.cpp:BindingMap::bind_variable"]}
{"id": "C168", "title": "Forward timings are computed when they follow from the guards", "statement": "Evaluating the forward timings succeeds if and only if both timings of the consequence follow from the bindings and the guards (through any number of guards); then both are bound to timestamps that follow from them.", "quantifier": "all lists of guards, all expressions of any depth, all operators (partial functions), all bindings, all pairs of variables", "why_tests_cant": "The end of the interval may need the beginning and conversely, each may be bound or not, and the second evaluation reads code patched by the first. Tests use models with the usual form of guards.", "anchors": ["r_exec/hlp_overlay.cpp:HLPOverlay::evaluate_fwd_timings", "r_exec/hlp_context.cpp:HLPContext::evaluate_no_dereference", "r_exec/binding_map.h:BindingMap::is_timestamp"]}
{"id": "C169", "title": "min and max give the greatest lower and the least upper bound", "statement": "Of two numbers, two timestamps or two durations, min gives the greatest lower bound and max the least upper bound in the order of the comparison operators; the result is one of the two and does not depend on their order; of values of different kinds there is no result.", "quantifier": "all pairs (and triples) of values as atoms hold them, in every single precision arithmetic", "why_tests_cant": "Infinities take branches of their own and NaN compares with nothing; tests try a few pairs in one order.", "anchors": ["r_exec/operator.cpp:minimum", "r_exec/operator.cpp:maximum"]}
{"id": "C170", "title": "Objects injected into a group reach all the groups that see it", "statement": "Injecting a new object into a group ends whichever groups see each other with content visibility; the object then has exactly one view in the group, in each group that sees it with content visibility, in each group that sees one of these, and so on, and in no other; each copy has the saliency of a view in a group it sees, adapted to the thresholds; and each of these groups is told exactly once by each such group that it sees, by a view if it has none and by a request on its view otherwise.", "quantifier": "all finite sets of groups, all visibility relations (with cycles and groups that see themselves), all orders of iteration, all thresholds and saliencies", "why_tests_cant": "The injection of a copy injects further copies from within, and visibility can be mutual. Tests have one group that sees another.", "anchors": ["r_exec/group.cpp:Group::cov", "r_exec/group.cpp:Group::inject", "r_exec/group.cpp:Group::inject_existing_object", "r_exec/mem.cpp:_Mem::inject_copy", "r_exec/view.cpp:View::View(View*,Group*)"]}
{"id": "C171", "title": "What becomes salient is copied to the groups that see it", "statement": "At the update of a group every group that sees it with content visibility has, afterwards, a view of every object and marker that became salient in it (notifications excepted); no view is lost or doubled, groups, programs, composite states, models and notifications are not copied, and new views are in groups that see the group or one of these, and so on, with adapted saliencies.", "quantifier": "all finite sets of groups, all visibility relations, all sets of newly salient views, all earlier views of the objects", "why_tests_cant": "The loop goes over groups and views while each copy may start further ones, and objects may be in some of the groups already. Tests have one group that sees another.", "anchors": ["r_exec/group.cpp:Group::cov", "r_exec/group.cpp:Group::update", "r_exec/mem.cpp:_Mem::inject_copy"]}
{"id": "C172", "title": "Input-less programs run once in a time scope", "statement": "While an active input-less program is in an active group it runs once in each of its time scopes, two runs being at least a time scope apart; a program that is to run once runs once at most; it never runs while it or its group is inactive or after it has been invalidated; and it goes on for as long as it is active, however often it was inactive before.", "quantifier": "all time scopes, all orders and times of activations, deactivations, updates of the group, jobs and invalidations, with several threads", "why_tests_cant": "Each run schedules the next, and activation schedules another one; what happens depends on changes between the check of a job and its run. Tests let one program run for a while.", "anchors": ["r_exec/pgm_controller.cpp:InputLessPGMController::signal_input_less_pgm", "r_exec/time_job.cpp:InputLessPGMSignalingJob::update", "r_exec/time_job.cpp:SignalingJob::is_alive", "r_exec/group.cpp:Group::update", "r_exec/group.cpp:Group::inject"]}
{"id": "C173", "title": "Operators call the functions of their name", "statement": "When the executive is initialised with a source and a library of user operators, however often, an operator of the source calls the function that the executive has for its name, and when that one fails the function that the library has for its name, and no other function; and each operator of the source has at least one function.", "quantifier": "all sources (operators, functions and classes in any order, with any names), all libraries, any number of initialisations", "why_tests_cant": "The functions of the executive are registered by number and those of the library by name, in tables filled from the source. Tests use one source and one library.", "anchors": ["r_exec/init.cpp:InitOpcodes", "r_exec/init.cpp:Init", "r_exec/operator.cpp:Operator::Register", "r_exec/operator.h:Operator", "r_comp/preprocessor.cpp:Preprocessor::initialize", "usr_operators/usr_operators.cpp:GetOperatorName"]}
{"id": "C174", "title": "Metadata survives being written and read", "statement": "Metadata (the class array, the maps of classes and of system classes, the names of classes, operators and functions) written to a buffer that has room for get_size words changes those words only, and is read back as it was, with every operator, function and class under its name.", "quantifier": "all metadata the preprocessor can make, of any size, all buffers and positions", "why_tests_cant": "Each record is found from the sizes of those before it, and maps are stored as indices into the class array. Nothing in the repository calls these functions, so no test does.", "anchors": ["r_comp/segments.cpp:Metadata::write", "r_comp/segments.cpp:Metadata::read", "r_comp/segments.cpp:Metadata::get_size", "r_comp/class.cpp:Class::read"]}
{"id": "C175", "title": "An instance of a composite state is of one simulation", "statement": "When simulated predictions are among what is put together to an instance of a composite state, there is one simulation that all of them are in, and the instance is said to be of simulations of its inputs, of none only if none is simulated. Every input is taken by an overlay that it can be so put together with, if it matches a pattern that is left and does not end before the axioms of the overlay begin; the overlay then has it in the place of that pattern, and a copy is left as it was before.", "quantifier": "all composite states, matchings of patterns, sequences of facts and predictions, in any number of simulations", "why_tests_cant": "What an overlay refuses depends on the simulations of everything it has taken before. With one goal at a time there is one simulation and nothing to be mixed.", "anchors": ["r_exec/cst_controller.cpp:CSTOverlay::bind_pattern", "r_exec/cst_controller.cpp:CSTOverlay::update", "r_exec/cst_controller.cpp:CSTOverlay::get_offspring", "r_exec/cst_controller.cpp:CSTOverlay::reduce", "r_exec/cst_controller.cpp:CSTOverlay::get_simulation"]}
{"id": "C176", "title": "The markers of an object are those in memory that refer to it", "statement": "At any time the marker set of an object has each marker that is in memory (loaded or injected, not invalidated) as often as that marker refers to the object, and nothing else, in particular no marker that was invalidated or deleted; and the secondary group of a group is the second of a pair (mk.grp_pair) in memory of which it is the first, and there is none if there is no such pair.", "quantifier": "all objects, histories of loading, injecting, notifying, views ending, invalidating and deleting, in any order and number", "why_tests_cant": "Marker sets hold plain addresses. Whether all of them are removed when a marker goes depends on how often and by which function it was put there, and an address that remains does harm only when a change of saliency is propagated along it later.", "anchors": ["r_exec/group.cpp:Group::inject_notification", "r_exec/group.cpp:Group::inject_new_object", "r_exec/group.cpp:Group::load", "r_exec/group.cpp:Group::get_secondary_group", "r_exec/object.tpl.cpp:Object::invalidate", "r_code/object.h:Code::remove_marker", "r_exec/view.cpp:View::delete_from_object"]}
{"id": "C177", "title": "The code of a learnt model stands for the model that was meant", "statement": "The code that the learning of models writes (head, guards of any of the forms of the guard builders, tail) stands, when it is followed from its first word, for a model with: as many variables as there are template arguments, the last two of them as a time interval; the left-hand side and the right-hand side as objects; the guards forward that the form has (the times of the right-hand side from those of the premise, and its value from the value of the premise and the cause); the guards backward that the form has (the times of the premise and of the left-hand side from those of the right-hand side, and the argument of the command or the value of the premise); the output group; strength 0, count, success rates and threshold 1. No part overlaps another, whatever the number of template arguments and the size of an argument that is copied.", "quantifier": "all numbers of template arguments, variables of the patterns, forms of guards with their periods, offsets, operators and constants, and arguments of commands", "why_tests_cant": "The guards are written with two indices that move independently, each form has its own sequence of increments, and an index that is one too small makes one part overwrite another only for particular numbers of arguments; what is wrong is seen when a learnt model predicts.", "anchors": ["r_exec/pattern_extractor.cpp:_TPX::build_mdl_head_from_abstract", "r_exec/pattern_extractor.cpp:_TPX::build_mdl_tail", "r_exec/guard_builder.cpp:TimingGuardBuilder::write_guard", "r_exec/guard_builder.cpp:SGuardBuilder::_build", "r_exec/guard_builder.cpp:CmdGuardBuilder::_build", "r_exec/guard_builder.cpp:ConstGuardBuilder::_build", "r_exec/guard_builder.cpp:ConstBwdArgCmdGuardBuilder::build"]}
{"id": "C178", "title": "The abstraction of an instance has the values of the instance in its bindings", "statement": "When an instance of a composite state is kept for learning with its abstraction and its bindings, each variable of the abstraction stands, in these bindings, for the argument that the instance has at that place (template arguments and exposed arguments alike); different places have different variables; and the times, the kind of fact, the composite state, the threshold and the number of arguments are those of the instance.", "quantifier": "all composite states (numbers of template arguments, structures in them, variables and their order, places of the times of the first fact) and all bindings", "why_tests_cant": "The variables are counted by one function and the places in the bindings by another; they agree in the arguments before the times of the first fact. A wrong variable does not fail, it names another value of the same state.", "anchors": ["r_exec/binding_map.cpp:BindingMap::abstract_f_ihlp", "r_exec/binding_map.cpp:HLPBindingMap::init_from_hlp", "r_exec/binding_map.cpp:HLPBindingMap::build_f_ihlp", "r_exec/auto_focus.cpp:AutoFocusController::reduce"]}
{"id": "C179", "title": "Outcomes of goals in simulations are told", "statement": "While a monitor of a goal or of a requirement simulates, each outcome of its goal that it is shown is told: a prediction, in the primary group, of the success (or, by |fact, of the failure) of the goal, with what showed it as the evidence, at its times, with its confidence, and in the same simulations; in order, once each, and nothing else is told. A monitor of a goal is shown an outcome by a prediction, in a simulation of its controller, of evidence for or against the target; a monitor of a requirement by a prediction, in a simulation of the root of its goal, with which the requirement is met or not. It ends with the time of the monitor, the goal, or actual evidence.", "quantifier": "all monitors (goals, requirements, simulated goals and simulated requirements; of models at the top level and others), all histories of inputs, signals, times and invalidations", "why_tests_cant": "Whether a simulation is taken into account depends on predictions that no test sees unless it runs a simulation with competing goals; one that is not told looks like a goal without an outcome.", "anchors": ["r_exec/g_monitor.cpp:GMonitor::reduce", "r_exec/g_monitor.cpp:RMonitor::signal", "r_exec/g_monitor.cpp:SGMonitor::reduce", "r_exec/g_monitor.cpp:SRMonitor::signal", "r_exec/mdl_controller.cpp:PMDLController::inject_simulated_goal_success", "r_exec/mdl_controller.cpp:PrimaryMDLController::register_simulated_goal_outcome"]}
{"id": "C180", "title": "A goal has the outcome that was decided, told once, also when predictions of the evidence come true", "statement": "Once an input shows that a goal is reached or failed, or its time is over, the outcome of the goal is told: the success or failure that this shows, with the input as its evidence (none with the time); it is told once, and no outcome is told otherwise; whether the target is that something is there or absent, whether or not models predicted the evidence, and whatever comes later.", "quantifier": "all goals (of facts and anti-facts, with or without simulations and pattern extractors), all histories of inputs, successes of predictions, times and notifications", "why_tests_cant": "For goals that something is absent the monitor leaves the outcome to the pattern extractor, which depends on a prediction that comes true; a test has to have models that predict the evidence, none or several, in the right order.", "anchors": ["r_exec/g_monitor.cpp:GMonitor::reduce", "r_exec/pattern_extractor.cpp:GTPX::ack_pred_success", "r_exec/auto_focus.cpp:AutoFocusController::dispatch_pred_success", "r_exec/factory.cpp:_Fact::is_evidence"]}
