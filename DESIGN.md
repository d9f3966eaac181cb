# Formal model of AERA (r_code and r_exec) in Lean 4

## 1. Approach

* One Lean module per area under `lean/Verif/<Area>/`: `Model.lean` (definitions that
  transcribe the C++ with file/line citations), `Spec.lean` where a property needs its own
  vocabulary, `Lemmas.lean` (proof internals), `Props.lean` (the property theorems, each next
  to a concrete non-trivial instance showing that its hypotheses can be met).
* Models are total functions over `BitVec`, `Int`, `Rat`, `List`, `Option` and structures.
  Machine words are `BitVec 32`/`BitVec 64`; instants are `Int` microseconds
  (`std::chrono` 64-bit counts, absence of overflow is an explicit simplification).
* Pointers/reference-counted handles are natural-number identities.
* Undefined behaviour (out-of-bounds access, non-termination, use after erase) is a separate
  outcome (`none`, or an explicit fuel-independent non-termination statement).
* Properties are proved by induction over histories (lists of operations), by refinement of a
  simple specification, or by exhaustive algebra on words.
* Where the code contradicts the property, the negation is proved from a concrete witness
  (`..._violated`), and the part which does hold is proved as `..._partial`. Such disagreements
  are listed in section 4.

## 2. Trusted base

* Lean 4.33.0's kernel; Mathlib only through kernel-checked theorems.
* Axioms: at most `propext`, `Classical.choice`, `Quot.sound`
  (`Verif/Axioms.lean` prints them for each property theorem).
* The transcription from C++ to Lean, made by reading; every definition cites the lines.
* Single-precision arithmetic is `Verif/F32`: round to nearest even of exact rationals, normal range
  (no subnormals, no overflow), plus the truncation of the last two bits made by `Atom::Float`.
* Where an area treats another one as a parameter (for instance matching in `Requirements`, `Cst` and
  `Pgm`), the parameter is universally quantified in the theorems.
* Not modelled: memory management (`P<>`), locks and real threads (the functions modelled are
  those executed under the object's lock, as one atomic step), the CoreLibrary submodule
  (absent from the checkout), what of the compiler is not in `Compile`, `Classes`, `Source`, `Macro`, `Labels`, I/O
  devices, and tracing output.

## 3. Properties: what is modelled and how it is proved

| id | model | method |
|----|-------|--------|
| C01 | `Atom`: every constructor/accessor of atom.inline.cpp on `BitVec 32` | bit-vector extensionality, all arguments |
| C02 | `Atom` | same; tag table |
| C03 | `Atom`: float bits as `BitVec 32`, value of a finite float as a rational | word algebra + ordered field |
| C04 | `Atom` | decision of the constants, negative result for all other constructors |
| C05 | `Atom` | word algebra |
| C06 | `Words`: Set/Get time functions on code vectors | list update lemmas + 64/32-bit split |
| C07 | `Words`: string packing | induction on the characters |
| C08 | `CellList`: list.h cell by cell | representation invariant, refinement to `List` |
| C09 | `CellList` | consequence of the refinement |
| C10 | `CellList`: time_buffer on the same model | induction on the chain |
| C11 | `Image`: word stream writer/reader | parser-inverse with arbitrary tail |
| C12 | `Image` | induction on the object list |
| C13 | `Timings`: match_timings | interval algebra (omega) |
| C14 | `Timings` | fold = max/min characterisation, permutation invariance |
| C15 | `BindMap`: value array with unbound counter | history induction |
| C16 | `Evidence`: facts over a matching relation | case analysis for all inputs |
| C17 | `Evidence` | same |
| C18 | `Evidence` | same |
| C19 | `Match`: Match/MatchStructure on atom vectors | structural induction |
| C20 | `Evidence` | algebra |
| C21 | `ViewCtl`: view.cpp mod/set/update over `Rat`, in exact and in rounded (`F32`) arithmetic | history induction |
| C22 | `ViewCtl` | induction on the number of updates |
| C23 | `ViewCtl` | induction on the value history |
| C24 | `ViewCtl`: Group::update_sln / update_stats | induction on the visited values |
| C25 | `Upr` | Euclidean division |
| C26 | `Propagation` | graph reachability |
| C27 | `Sched`: DiagnosticTimeState::step | invariant over steps |
| C28 | `Sched` | invariant over steps |
| C29 | `Sched` | multiset accounting |
| C30 | `Store` | history induction |
| C31 | `Store` | case analysis + history induction |
| C32 | `Perf` | history induction |
| C33 | `Invalidation` | dependency graph closure |
| C34 | `Sims` | list algebra |
| C35 | `Sims` | history induction |
| C36 | `ModelBase` | history induction |
| C37 | `ModelBase` | witness + partial |
| C38 | `Pack` | structural induction |
| C39 | `Overlay` | history induction |
| C40 | `Red` | list induction |
| C41 | `Guards` | code layout decoding + algebra |
| C42 | `GuardScan` | non-termination witness, soundness/completeness on acyclic sets |
| C43 | `Requirements` | list induction over caches |
| C44 | `Requirements` | list induction |
| C45 | `Rating` | history induction over `Rat` |
| C46 | `Counts` | history induction + witness |
| C47 | `EvidenceCache` | history induction |
| C48 | `Monitors` | state machine over all interleavings |
| C49 | `Monitors` | state machine |
| C50 | `Cst` | history induction |
| C51 | `Cst` | witness + partial |
| C52 | `SimHorizon` | arithmetic |
| C53 | `Ops` | case analysis |
| C54 | `Pgm` | history induction |
| C55 | `GroupViews` | list induction |
| C56 | `TimeText` | digit arithmetic |
| C57 | `HasRef`: has_reference on code vectors | fuelled recursion, witness + partial |
| C58 | `InputPtr`: patch_input_code | witness + partial |
| C59 | `Image`: class and member records | parser-inverse; witness |
| C60 | `Image`: object map | offset arithmetic; witness |
| C61 | `Match`: MatchStructure on strings and durations | witness + partial (zero tolerance) |
| C62 | `ViewCtl`: MorphValue | ordered field; witnesses |
| C63 | `ViewCtl`: MorphChange | ordered field; witness |
| C64 | `Store`: the object store and its reference counts | history induction; witness |
| C65 | `Cst` | non-interference of the guards; witness |
| C66 | `SimHorizon` | induction on the chain; witness |
| C67 | `Pgm`: anti-programs | history induction; witness |
| C68 | `GroupViews` | history induction; witness |
| C69 | `LoadTimes` | induction on well-formed code; witnesses |
| C70 | `Lifetime` | arithmetic; witnesses |
| C71 | `Lifetime` | arithmetic; witness |
| C72 | `Rating` | history induction over `Rat`; witness |
| C73 | `Pgm` | history induction; combinations of the overlays stay pairwise different |
| C74 | `Snapshot` | induction on the depth of references, acyclic graphs; witnesses |
| C75 | `Snapshot` | depth-first closure, number of objects left decreases |
| C76 | `Values` | induction on depth, regions of the destination; witnesses |
| C77 | `Instance` | writer: regions and what they stand for; reader: induction on the same structure; witnesses |
| C78 | `Bind` | induction on finite patterns; regions of the destination as in C77 |
| C79 | `Instance` | count of the entries written before |
| C80 | `Values` | what is found along a path, with references resolved; witness |
| C81 | `Unify` | instances as an inductive relation; induction on the finite object; least values; witnesses |
| C82 | `Abstract` | abstraction as an inductive relation; induction on the finite object, heap and map growing; an instance by induction on the relation; witnesses |
| C83 | `Extract` | discarded components as a predicate on the inputs; induction on rounds; witnesses |
| C84 | `Extract` | invariant of overlays (`Cst`): which inputs are kept where; induction on the depth; witness |
| C85 | `Source` | simulation: reading what is written goes from state to state (`Reads`); induction on structures; witnesses |
| C86 | `Source` | each round leaves a shorter rest, or the end; invariant on the rest of the text; witnesses that loop |
| C87 | `Macro` | replacing one at a time against substitution at once; induction on structures; witnesses |
| C88 | `Macro` | rewriting relation; induction on calls; last pass without changes; witness |
| C89 | `Classes` | history of what was filed; induction on the recursion; counting; witnesses |
| C90 | `Classes` | meaning of definitions against the list of arguments; simulation; witness |
| C91 | `Compile` | meaning of sources and reading of code, both without the compiler; induction on the meaning, frames of memory; witnesses |
| C92 | `Typed` | typing of sources without the compiler; induction on the depth of calls, for writing and counting alike; witnesses |
| C93, C94 | `Labels` | invariants of the two passes; pigeonhole for the search of suffixes; witnesses |
| C95 | `Decomp` | what is written means what was read, by induction on the meaning, with what follows as continuation; then C91; variables renamed back; witnesses |
| C96 | `Cycle` | sum and number of pending changes along the period, by induction; then what the update makes of them; witnesses |
| C97 | `Cycle` | invariant over histories (active exactly if above, in a group that is on), by the four cases of the edges; witnesses |
| C98 | `Cycle` | invariant over histories (registered exactly if visible), with the loop over views as a fold; witnesses |
| C99 | `Cycle` | the jobs of an update as a list, filtered by program and by view; C97; witnesses |
| C100 | `Cycle` | invariant over the period: what a program was given is what is newly salient; witnesses |
| C101 | `Cycle` | the signalling jobs of an update counted by view; C97; witnesses |
| C102 | `Observe` | the words of marker, fact and view read back field by field, for each form of value; witnesses |
| C103 | `Observe` | arithmetic of the sampling periods; witnesses |
| C104 | `TestWorld` | invariant of the hand over histories; case analysis of the commands; witnesses |
| C105 | `TestWorld` | induction over histories: place and pending step against the accepted steps; witnesses |
| C106 | `TestWorld` | induction over histories: values last set; witnesses |
| C107 | `Screen` | invariant of the eye over histories; conversion of floats to integers; witnesses |
| C108 | `Screen` | table of the 512 names computed and compared; injection times over histories |
| C109 | `Focus` | what each extractor does to the cache and sends, as a relation; induction over the extractors |
| C110 | `Focus` | potential: copies still in the cache plus the direct one; induction over histories |
| C111 | `Focus` | refinement of the lists of extractors to the open targets of the history |
| C112 | `Focus` | induction over the schedule: the first decisive input |
| C113 | `Predict` | induction over the binding results; the gate as a specification; composition with C43 |
| C114 | `Predict` | the effects of each binding result |
| C115 | `Predict` | the same |
| C116 | `Predict` | the same |
| C117 | `Predict` | the production and the cache of requirements |
| C118 | `Predict` | the effects of each binding result |
| C119 | `Abduce` | the ordered list of the effects of a goal on one model; requirements, evidence and bindings are parameters |
| C120 | `Abduce` | the injections among these effects |
| C121 | `Abduce` | the effects of a simulated goal, each with its simulation |
| C122 | `Abduce` | the effects when a requirement arrives, against those of the goal |
| C123 | `Abduce` | histories of requirements; the validities of the predictions made |
| C124 | `Commit` | the solutions handed on and the invalidations after any history of outcomes |
| C125 | `Commit` | the effects of a commitment against those of the goal |
| C126 | `Commit` | the invalidations after any history of outcomes |
| C127 | `Drives` | the effects of giving a drive to a top-level model |
| C128 | `Drives` | the effects of the outcome of a drive's goal |
| C129 | `Drives` | all histories of drives, inputs and timers; interleaved steps of two cores |
| C130 | `Assume` | the assumptions among the effects of an input |
| C131 | `Assume` | the effects of an own assumption after any history |
| C132 | `Assume` | the test made on the confidence of an assumption |
| C133 | `Learn` | the causes of the attempts of one `CTPX::reduce` |
| C134 | `Learn` | the attempts of one `GTPX::reduce`, and the states made for them |
| C135 | `Learn` | the attempts of one `PTPX::reduce`, and the states made for them |
| C136 | `Learn` | what the attempts send, and the model base before and after |
| C137 | `Lapse` | histories of inputs, outcomes and group updates: where the model is active afterwards |
| C138 | `Lapse` | the history before an input that does not match: matches and awakenings within the horizon |
| C139 | `Lapse` | the model's views, controllers and registration after a kill and the next updates |
| C140 | `Lapse` | reachability in the declared dependencies against what is dead once inputs kill nothing any more |
| C141 | `Prods` | the list of events against the concatenation of what each command asks for |
| C142 | `Prods` | a reader that decodes the words of the marker, against the list of what was done |
| C143 | `Prods` | each fact against the frame its time lies in, found by division |
| C144 | `ModSet` | the clamped value asked for; histories of commands against `ViewCtl.run` |
| C145 | `ModSet` | the heap before and after |
| C146 | `Ctx` | the values that contexts stand for (`Den`), `same` |
| C147 | `Ctx` | the values of skeleton and input, `inst`, `consistent` |
| C148 | `Ctx` | the values of the expression and of the new object's members |
| C149 | `Tcp` | the variables of a message of data, by what the messages of setup say, and the facts injected |
| C150 | `Tcp` | the words of a command, its answer and what is sent |
| C151 | `Tcp` | the messages received and those handled, with their times |
| C152 | `Usr` | the value of an expression, component by component (`valAt`), and the word left in the code |
| C153 | `Usr` | the operators on quaternions over the rational numbers |
| C154 | `Law` | the values before and after, the arguments of the cause, and what a law says of them (`Holds`) |
| C155 | `Subgoal` | the sub-goals made of a goal, their targets and simulations |
| C156 | `Icst` | the inputs of an instance, their confidences, simulations and validities |
| C157 | `Promote` | histories of arrivals, when facts tell of or exclude each other (`Tells`, `Against`) |
| C158 | `Cores` | executions of the cores, the delegates and the thread that stops; what all is over means (`Ended`) |
| C159 | `Timed` | the log of one job (asked for, done, reported), any clock and timers |
| C160 | `Tpl` | the values (as in C146) of the arguments of the instance, of the skeletons, and of what is run |
| C161 | `Ins` | the values (as in C146) of the operands and of the object made |
| C162 | `Inp` | the values (as in C146) of the skeleton, of the input and of the variables in the program after the match |
| C163 | `Eval` | the values of expressions, defined on the program as it was written; what members stand for after the evaluation |
| C164, C165 | `Eval` | whether guards let through, by the values of their expressions |
| C166 | `Keep` | the values (as in C146) of productions when they are built, and of the result whatever then happens to the code |
| C167, C168 | `Gev` | when guards hold of bindings, by the values of their expressions; what follows from guards (inductively) |
| C169 | `Extrema` | greatest lower and least upper bounds in the order that `lse` decides |
| C170, C171 | `Cov` | the groups reachable through content visibility (inductively), and the number of ways to each |
| C172 | `Inless` | the times of the runs in a log of events, and what is due in a state |
| C173 | `Oper` | the functions of a name, those of the executive and of the library |
| C174 | `Meta` | that metadata is read back equal, and the words outside it are as before |
| C175 | `Mix` | a simulation that all the simulated inputs are in; the inputs and patterns of an overlay as lists up to order |
| C176 | `Marks` | how often a marker is in a marker set, from the markers in memory and their references |
| C177 | `Lay` | reading code from its first word into a tree; the tree that is meant |
| C178 | `Absi` | the values of the arguments of an instance and of its abstraction in the bindings, place by place |
| C179 | `Simout` | the outcomes that the events of a history show, against the predictions that are injected |
| C180 | `Ackg` | the first event of a history that decides, against the outcomes that are registered |

## 4. Disagreements between code and property

For each of these the full statement is kept as `Cxx_full` (or spelled out in the theorem), its
negation is proved from a concrete execution of the model (`Cxx_..._violated`), and what does hold is
proved as `Cxx_..._partial`. The code location is among the anchors of the property.

* **C04** (Every undefined value reads as nil). violated by the code for some constants (witness proved); partial covers the rest
* **C05** (Node and device addresses survive encoding). violated by the code (witness proved)
* **C06** (Timestamps and durations written into an object read back unchanged). all forms proved except SetDurationStruct, which truncates the code that follows (witness proved)
* **C07** (Strings written into an object read back unchanged). violated for strings with embedded NUL / over 255 characters
* **C09** (A stored position designates the pushed element). push_front reports a wrong position when no cell is free (witness proved)
* **C10** (Iterating a time buffer never yields an expired or invalidated element). begin() does not check the first element (witness proved)
* **C100** (Latecomers get the inputs of the period). Full statement C100_full refuted: inject_group makes jobs for the view without recording it as newly salient, so that latecomers miss it. Proved under the conditions of C97 for periods without injected groups.
* **C101** (One signalling job for each activation). Full statement C101_full refuted: when the threshold rises above the activation of an active program, the program stays active (C97), and when its activation then rises too it gets a second signalling job. Proved under the conditions of C97.
* **C102** (Devices inject the facts they are asked to). Full statement C102_full refuted: a list of 256 numbers becomes an empty set, with 65536 the call does not return, a text with a character that is not ASCII becomes another. Proved for values of at most 255 members and texts of at most 254 ASCII characters.
* **C103** (The record of a command). Full statement C103_full refuted: with a tolerance of more than half of the sampling period the interval ends before it begins, and before the time reference it is that of another period. Proved otherwise.
* **C104** (The test environment answers with what it did). Full statement C104_full refuted: a step beyond the first or last place is answered as executed although nothing is done, and functions with opcodes of more than eight bits are taken for others. Proved otherwise, after all histories of commands without null references.
* **C105** (The hand goes where it is told to). Full statement C105_full refuted: steps beyond the ends are accepted, so that the accepted steps do not add up to the place. Proved: the places reported never leap; the steps add up as long as none of them goes beyond the ends; the time from which an accepted step is reported, if no other command is sent meanwhile (a witness shows that another command delays it).
* **C106** (What the test environment injects). Full statement C106_full refuted: each goal injected in the first 3.7 seconds begins after it ends. Proved for all else; the arithmetic of the ball and the cart is a parameter.
* **C107** (The eye stays on the screen, and says how far it went). Full statement C107_full refuted: a displacement of 1.5 moves the eye by 1 and is answered as executed. Proved for whole numbers below 2^30 and opcodes of eight bits.
* **C109** (What focus passes on). Full statement C109_full refuted: an input kept back for one target and matching another is sent twice; copies have certainty one, whatever was observed; an input that is to hold is shown as holding from twice the tolerance after now; an input with SYNC_ONCE_AXIOM reaches no group and an unset view is recorded. Proved, for other inputs: success, relevance exactly, sent once or twice, once if no target leaves anything open, the exact form of what is sent, and that exactly what is recalled is sent, once. Over histories: what some open target might need is kept and sent by the time it is recalled within the time horizon.
* **C110** (Focus sends an input once). Full statement C110_full refuted by two goals and one input. Proved for all histories: at most twice; at most once if everything is passed on or no target leaves anything open; never what was not given.
* **C113** (A model predicts what its requirements allow, once). Full statement C113_full refuted: an actual input makes the same prediction once per requirement in force (already_predicted is only filled for predicted inputs), each with a monitor of its own; and a simulation that forbids the prediction contributes its binding to what a later one allows. Proved: soundness and completeness, distinctness for predicted inputs, at most one per binding for actual ones, if forbidding simulations give no bindings (always so without strong requirements). C113_chained composes this with the caches of requirements of C43.
* **C114** (Predictions are followed to their outcome). Full statement C114_full refuted: register_requirement comes before the tests for late predictions and for predicted inputs, so that requirements are held to account for predictions that nothing follows. Proved: the rest in general, and this for actual inputs whose predictions are in time.
* **C115** (The secondary group sees which models fire). Full statement C115_full refuted: destination and origin of the view are exchanged, so that nothing ever reaches the secondary group and the group of the model gets the instance twice. Proved: the group of the model gets it.
* **C116** (Requirements are handed to the model they are for). Full statement C116_full refuted: what one simulation of the input forbids is handed over as allowed by another (see C113). Proved for actual inputs, for predictions that are no simulations, and for simulations if those that forbid chaining give no bindings; what the other controller does with it is proved in general.
* **C117** (What rests on a defeated requirement is withdrawn). Full statement C117_full refuted in both parts: the predicted instance of a command or reuse model does not depend on the requirement, and a strong requirement predicted in more than one simulation withdraws nothing. Proved: predictions depend on it; one in a single simulation withdraws what it defeats.
* **C118** (Secondary models only watch). Full statement C118_full refuted: chaining_allowed is computed and not used, requirements are always passed on as allowed. Proved: the rest.
* **C12** (A saved image loads as the same image). violated when an object starts beyond word 65535 of the code segment (uint16 offset in CodeSegment::read, witness proved); proved otherwise
* **C120** (What is made for a goal lives as long as its target). Full statement C120_full refuted: inject_goal computes the resilience for a life of no length, so goals that are acted upon live one period whatever their end, and goals made when a requirement arrives may be past. Proved: all that is made in simulations has the right resilience, and goals made at once are in time if the left-hand side ends when the forward timings do.
* **C121** (Simulated goals stay in their simulation). Full statement C121_full refuted: a simulated branch that arrives at something known makes a view for its outcome and never injects it; the prediction at the end of a simulation is bound before the guards are evaluated. Proved: the rest.
* **C122** (Waiting for a requirement ends as it should). Full statement C122_full refuted: for a model with strong requirements only, of which there is no instance, the ground is NULL and read. Proved: the rest in general, and absence of undefined behaviour for models with weak requirements. That storing a stored confidence changes nothing is a hypothesis, proved for the numbers of the source and confidences from 0.
* **C123** (A command is simulated once and stands with its reasons). Full statement C123_full refuted: the validities kept are those common to the requirements, so that a command which two allow stands although both are withdrawn. Proved: it is predicted once and stands while one of its reasons does.
* **C124** (The plan that is carried out is the best that does no harm). Full statement C124_full refuted: mandatory solutions are carried out only if there is an optional one, also if withdrawn, and as often as an outcome came. Proved: the rest, and that mandatory ones are carried out if there is an optional one.
* **C125** (Carrying out a plan is pursuing its goal). Full statement C125_full refuted: the confidence is that of the goal monitored, the success rate and the threshold of the model are ignored. Proved: equal effects if the confidence is the one the model would give it and exceeds the threshold; these are the ones of C119.
* **C126** (Plans that harm stronger goals are stopped). Full statement C126_full refuted: only the first mandatory simulation that does harm is stopped, then no other. Proved: only harmful ones are stopped; all are if no mandatory one is.
* **C127** (Drives are pursued). Full statement C127_full refuted: a model without output groups reads beyond its code; the group of the drives is notified of the goal too, since get_rdx_out_group_count is not used; the goal is given the resilience of a life of no length. Proved: the rest, for models with an output group.
* **C128** (The outcome of a drive's goal is told). Full statement C128_full refuted for models without output groups only, which read beyond their code. Proved for all others.
* **C129** (A drive has one outcome). Full statement C129_full refuted: two cores may both find the drive standing and both tell its outcome; a predicted success silences the monitor for good, so that the drive gets no outcome. Proved: the rest for events that do not interrupt each other, and completeness when no monitor is silenced.
* **C131** (A model takes nothing from its own assumptions). Full statement C131_full refuted: the controller forgets an assumption when it comes as an input for the first time, and treats it like any fact when it becomes salient again. Proved: the first time nothing is taken from it, whatever came between.
* **C132** (Assumptions do not rate models). Full statement C132_full refuted both ways, since evidence is taken for an assumption exactly if its confidence is not 1: assumptions of a model that never failed rate models, actual evidence of less confidence does not. Proved: assumptions whose confidence is below 1 do not, certain evidence does.
* **C133** (Causes of changes are tried). Full statement C133_full refuted: a state is made of the facts that hold when the old observation starts to, and those are not tried any more, though each of them may be the cause. Proved: only possible causes are tried, in order; all are, unless they hold then; no undefined behaviour.
* **C134** (Reasons for successes are tried). Full statement C134_full refuted: for an |fact the state found is assigned to a local variable of the same name and NULL is read; instances of states among the inputs may have facts left out that are not tried either (C83). Proved: the rest; facts left out hold when one that was tried starts to, and are in its state if no input is an instance of a state.
* **C135** (Reasons for failures are tried). Full statement C135_full refuted: instances of states among the inputs may have facts left out that are not tried either (C83). Proved: the rest; facts left out hold when one that was tried starts to, and are in its state if no input is an instance of a state.
* **C136** (What is learned is news). Full statement C136_full refuted: the instance of a state made has no components and is not found again, so that an equal state is made and sent for each cause of a change. Proved: all else. The signatures of a model and its requirement are taken to differ.
* **C137** (A model that nothing matches sleeps until its context returns). Full statement C137_full refuted: lose_activation does not activate the model in the secondary group, so that it is active nowhere, for good (C137_lost). Proved: it sleeps in the primary group, and only then.
* **C138** (A model is put aside or forgotten only after a horizon of idleness). Full statement C138_full refuted: last_match_time_ is not renewed when the controller gains activation, so that a model put aside long after its creation is forgotten at the first input that does not match. Proved: a match within the horizon always protects it.
* **C139** (A killed model is gone). Full statement C139_full refuted: a model killed because it has no requirement or a part of it is gone stays in the white list, and is not learned again. Proved: the views and controllers are gone after the updates; failed models are refused, idle ones forgotten.
* **C14** (The order in which evidence is matched does not change the resulting interval). instantaneous intervals are order dependent (witness proved); proved for collections without them
* **C140** (What is built on a killed model or state is killed). Full statement C140_full refuted: controllers that sleep take no inputs, and those made before their parts do not refer to them; both outlive their parts. Proved: nothing else dies; everything built on something killed dies if active and made in order; inputs settle.
* **C141** (A program carries out all its productions or none). Full statement C141_full refuted: an unknown function is found only when the commands before it have been executed; for objects built by red sections the program itself is injected, and words of its code are overwritten or what lies behind it. Proved: all else, and in the first case exactly the commands before have been executed (C141_prefix).
* **C142** (The notification of a reduction reports what was done). Full statement C142_full refuted: commands other than inject, eject, mod, set and those to devices are counted but not written and leave blank lines; injections without view lead to an empty marker. Proved: what is reported is right and in order, and complete otherwise.
* **C144** (mod and set take effect on the value they name). Full statement C144_full refuted: mod and set want the last word of the code, so that the threshold of an object with parts (a fact) cannot be changed; set does not clamp; groups are taken for views: a null pointer if referred to, a request for another view if an input. Proved: objects without parts, views, whatever is asked between two updates.
* **C145** (Looking up a view only reads). Full statement C145_full refuted: the view found is deleted while its group and object still have it, and 32 bits of the address of the group are kept. Proved: the values copied; other views are left alone; nothing happens without a view.
* **C146** (= says whether two values are the same). Full statement C146_full refuted: the words of timestamps, durations and strings are followed as if they were pointers, so that a timestamp can differ from itself and equal another; = is not transitive. Proved: values none of whose raw words looks like a pointer or a structure, variables that do not stand for structures in place or chains of pointers.
* **C147** (A skeleton matches its instances). Full statement C147_full refuted: (pair x: x) matches (pair 1 2); a timestamp with a word that looks like a wildcard matches others. Proved: with raw words that look like atoms, exactly the instances of the skeleton, variables aside, match; all of it if no variable occurs twice.
* **C148** (An object built by a program has the members that were asked for). Full statement C148_full refuted: an argument that is an object is copied into the new object rather than referred to; an input that is a member is taken by the wrong number. Proved: all values whose members are reached by the pointers listed in via, up to 4096 cells.
* **C149** (Data the environment sends become facts). Full statement C149_full refuted: truth values are dropped, facts of values of a class end when they begin, nothing is injected after a second message of setup, and an unknown identifier can give a set with a null object. Proved: everything else, over all histories without a second setup.
* **C15** (Unbound-variable counting is right). variable numbers are truncated to 8 bits (witness proved); proved below 256
* **C150** (Commands reach the environment as programs send them). Full statement C150_full refuted: a command for an unknown object is answered as executed though nothing is sent; of opcodes eight bits are compared; identifiers of entities are always sent as 0; the entity sent is that of the first description; after a second setup commands are refused. Proved: everything else, and that a refused command sends nothing.
* **C152** (Arithmetic on vectors is done component by component). Full statement C152_full refuted: sums and differences of quaternions are overwritten with nil, so evaluation fails; and a sum of sums of vectors of dimension 62 is undefined, as the value array is moved while an operand in it is read. Proved: for everything but sums, differences and distances of quaternions, if the values to be written fit into the capacity of the array; also that the code outside operators and the values already there do not change. Numbers are compared as the words that hold them, for any arithmetic.
* **C153** (A rotation is recovered from its quotient). Full statement C153_full refuted: components are rounded to two decimals. Proved: exactly up to sign and the square of the length without rounding, for all quaternions; within 3/200 per component with any rounding that errs by at most 1/200, for unit q. The arithmetic is that of rational numbers: missing is single precision.
* **C154** (The law of a learnt model holds of the change it was learnt from). Full statement C154_full refuted: the change in a microsecond is compared with the speed up to the tolerance, so a cause of value 0 explains a change of 0.5 in 100 ms; for instances of models an index is compared with a count, so a quotient among the arguments is missed; with a value as cause the pointers of vectors are taken for numbers, so that any change is explained as a product with 1. Proved: commands with values of all classes, soundness and completeness; instances of models and numbers, soundness, and completeness for differences; values and numbers, which law is found when, and that constants are right.
* **C155** (A goal for a composite state becomes goals for what is missing of it). Full statement C155_full refuted: goals acted upon become simulated ones and are never reported (the code for the report cannot be reached); a goal without a simulation is a null pointer that is followed; of a state not wanted every member is fought although one does not hold; predictions are compared with the confidence of the pattern before it is set, so they never count for patterns of confidence 1; expired overlays are used; the same thing at another time is left out. Proved: the members asked for are exactly the missing ones with their targets and simulations, for goals and knowledge that avoid these cases; simulated goals stay simulated; goals acted upon never do.
* **C156** (The instance of a composite state is worth what its members are). Full statement C156_full refuted: the fact of the instance is of confidence 1 whatever its members; a prediction lives too long by the factor of the base period; a prediction loses the validities of what it was made from, unless it is in a simulation and the last input is a prediction; one in a simulation loses the predictions it rests on. Proved: kind, simulations, invalidation and groups for all inputs (C156_core_partial); life of facts, grounds of predictions, validities in simulations when the last input is a prediction, and saliency (C156_rest_partial).
* **C157** (In a simulation what is the case is assumed to go on until a prediction tells otherwise). Full statement C157_full refuted: a fact is assumed against a prediction that came before the overlay had the fact (only predictions that withdrew something are remembered), and against one that is for longer (evidence is tested the wrong way round); a prediction that something is not elsewhere keeps it from being assumed to stay; an assumption made from a prediction does not have the validities of that prediction. Proved for all histories: form, the present prediction, one standing assumption for each input, withdrawal exactly when told of (C157_core_partial); what is assumed, if no |fact is predicted in the simulation (C157_complete_partial); not against a remembered prediction for no longer than the present one (C157_earlier_partial).
* **C158** (Stopping the executive returns, and then no thread of it is at work). Full statement C158_full refuted: a delegate counts itself only in its own thread, so one whose thread is slow is not waited for; it then uses the deleted semaphore, or waits for ever. Proved for all executions: stop never waits in vain, cores and delegates that have entered are over when it returns, at most one job more for each core, nothing deleted is used before stop returns (C158_stop_partial); the steps left to the cores only fall (C158_nearer_partial); everything, for executions in which all delegates have entered when stop takes the semaphore (C158_prompt_partial). Jobs are taken to end; threads of devices that push jobs are not modelled.
* **C159** (A timed job is done when it is asked for, never early and never dropped). Full statement C159_full refuted: a job put off in the loop of a time core gets a delegate with the time 0, which does it as soon as its timer fires, be it early; in a delegate the reference is not reset before a job is done again, so a job that gave a time once and then gives none is done over and over. Proved: the time a job gives is the one it is asked for next (C159_next_partial, all steps); everything, for jobs that always give a time or say they are done, with timers that are not early (C159_punctual_partial) or if popped before their time (C159_early_partial, any timers), and for jobs that never give a time (C159_single_partial, any timers). All jobs in the repository are of one of these kinds.
* **C160** (The variables of a program's template stand for the arguments of the instance). Full statement C160_full refuted: patch_tpl_code starts at the pattern rather than at its skeleton, so variables inside a structured template argument get pointers to other places of the instance (in the witness, to the program), and the guards of the pattern are compared with a word of the instance at the index in the low bits of the argument plus two, which for a number is outside the code. Proved: whenever the patching succeeds, each template argument as a whole stands for the argument given (C160_whole_partial); everything, for skeletons that are variables or have none inside, if the patching succeeds (C160_plain_partial); that it succeeds, for variables without guards whose arguments are structures (C160_variables_partial).
* **C161** (ins makes the instance that is asked for, and only when the arguments fit). Full statement C161_full refuted: a variable that occurs twice in a skeleton is not checked to stand for one value. Proved, for all programs, arguments and operands under the conditions of C147 and C148 (words of timestamps that do not look like pointers, arguments copied faithfully, an instance of at most 4096 cells): when an instance is made and that it is the one asked for (C161_ins_partial, with the fit of each argument as such; C161_linear_partial, everything, for skeletons whose variables occur once). Missing: the guards of the patterns (which ins does not evaluate), operands that are no objects.
* **C162** (The variables of a pattern stand for the parts of the input it was matched with). Full statement C162_full refuted: the place in the program by which a part of a referred object is reached is kept in eight bits, so that beyond the 256th word of the program a variable stands for a word of the program itself, or a null pointer is used; the words of a timestamp in a skeleton are taken for wildcards and pointers, which reads outside the code. Proved for all skeletons that are trees of structures, constants, variables and last tail wildcards, at any depth, and all inputs that fit, where references of the input are met within the first 256 words of the program and there are at most 256 inputs: C162_tree_partial. Missing: skeletons with timestamps, durations and strings (safe ones), in which a structure or a variable is shared, and constants that contain variables.
* **C163** (Expressions are evaluated to what their operators yield). Full statement C163_full refuted: pointers to results have twelve bits, so that once the results of an overlay take 4096 words, a timestamp, duration or structure that is computed is taken for one of the first results. Proved for all expressions, with any sharing, from any state, as long as the results take at most 4096 words, for programs whose variables stand for members that are not chains of pointers and in which no pointer points into a timestamp, duration, string or chain: C163_value_partial. Missing: objects as operands, ins, red, fvw, mod and set as operators, expressions in the middle of chains of pointers.
* **C164** (The guards of a program let it go on exactly when they hold). Full statement C164_full refuted by the twelve bits of pointers to results (C163). Proved for the programs of C163 and as long as the results take at most 4096 words: C164_program_partial. Missing: what is missing in C163.
* **C165** (The guards of a pattern let inputs through exactly when they hold). Full statement C165_full refuted: the set of guards is evaluated as a whole and it is the head of the set that is tested for being false, and in red nothing is tested; guards of patterns that are false let inputs through. Proved for the programs of C163: the guards let through exactly if all are evaluated, so exactly if they hold when none can be false: C165_pattern_partial. Missing: guards that can be false (a defect of the code), and what is missing in C163.
* **C166** (Red makes the set of what its productions stand for). Full statement C166_full refuted: variables that stand for parts of objects that inputs refer to are copied as pointers relative to the code and then read relative to the values; of what a chain of pointers leads to only the first word is copied; the number of productions is kept in eight bits, so that 256 productions give an empty set. Proved for any number of productions below 256, from any state, while the values take at most 4096 words, for productions of structures, atoms, timestamps, durations, strings whose words look like atoms, results of operators, objects, arguments, parts of inputs, variables for such, and chains that lead to atoms: C166_red_partial. Missing: the cases above, mod and set.
* **C167** (Guards that are evaluated with success hold). Full statement C167_full refuted: a guard that uses a variable of a later guard makes the evaluation fail; assigning a variable or a truth value succeeds and binds nothing; a bound variable is overwritten; an assignment that cannot be evaluated is accepted when its variable is bound. Proved for guards in a usable order, each assigning, once, a variable that is not bound, a number, object or operator that yields a number, object, timestamp or duration: success if and only if the guards can be evaluated in that order, with that result; all guards hold of it; other variables are as before. Missing: the cases above.
* **C168** (Forward timings are computed when they follow from the guards). Full statement C168_full refuted: timings that need a third assigned variable are not computed; when the operator for the end of the interval fails and the beginning can be computed, the second evaluation succeeds with the end unbound. Proved when each timing is assigned in at most one way by an operator that yields timestamps and fails in no such bindings, from the other timing and variables that guards do not assign, whichever is bound at first and whichever needs the other (or both, or itself). Missing: the cases above.
* **C169** (min and max give the greatest lower and the least upper bound). Full statement C169_full refuted: with NaN, which differences of negative infinities give, the result depends on the order of the operands and is no bound. Proved for all numbers that are not NaN (infinities included), timestamps and durations, with associativity and absorption; values of different kinds fail. Missing: NaN. Zero has no sign in the model.
* **C17** (Timeless evidence classification agrees with timed classification). violated for targets that are anti-facts (two witnesses proved)
* **C172** (Input-less programs run once in a time scope). C172_full is violated: a program that becomes inactive and active again within its time scope runs twice in each time scope from then on; a program that is to run once can run twice; a program can run after its deactivation; and it can stop for good though it is active. Proved: it holds when nothing comes between a check and a run, earlier jobs are gone at each activation and the group changes in updates of the view only; without conditions, a time scope has no more runs than there were activations, a controller invalidated while no thread is about to run it never runs again, and one that is not alive gets no jobs until it is activated.
* **C173** (Operators call the functions of their name). C173_full is violated: functions of the executive go by the order of the declarations; a declared operator may have no function, and the null pointer is called; the library of the repository gives empty names the second time, which ends the program; without a library, a second initialisation makes functions their own overloads; a system class with the name of an operator makes its function an overload of another operator. Proved for sources that begin with the standard operators and declare no name twice, and libraries whose operators are declared, exist and are named once, and that give their names anew each time; for all sources and libraries, a successful initialisation means that the operators of the library are declared and have functions.
* **C174** (Metadata survives being written and read). C174_full is violated: no buffer is read as metadata that has a class whose name does not begin with "undefined", nor as metadata with 65536 names of a kind; and, were classes read properly, operators would be read as the classes of the same number. Proved: writing changes get_size words only (all metadata); metadata without classes and of less than 65536 words is read back; with classes and without operators it would be, if classes had empty names before they are read.
* **C175** (An instance of a composite state is of one simulation). C175_full is violated: a prediction in several simulations is not checked, so it is put together with one of another simulation; and an overlay that has taken one refuses every prediction in one simulation, even in one of its own. Proved: all of it when every prediction is in one simulation at most, for all matchings, patterns and sequences of inputs.
* **C176** (The markers of an object are those in memory that refer to it). C176_full is violated: a notification injected into two groups (as mk.rdx is, into all notification or output groups) is put twice into the marker sets of what it refers to and removed once, so the address of a deleted object remains; likewise markers loaded in two groups; notifications of an image are never removed. Proved: all of it when markers are Objects, and are loaded or injected as notifications once and before they are invalidated; other injections are unrestricted.
* **C177** (The code of a learnt model stands for the model that was meant). C177_full is violated: the forms with a constant take the right-hand side for the left-hand side (get_reference(1) twice) and assign its times from themselves; of a command argument that is neither an object nor a number nothing is written and the model cannot be read; an object argument with references refers to the objects of the model once copied. Proved for all numbers of template arguments and all other forms: the code read from its first word is the model that is meant; the constant forms only where both sides have the same times, object arguments only without references.
* **C178** (The abstraction of an instance has the values of the instance in its bindings). C178_full is violated: the times of the first fact are in the bindings but not among the arguments, and the abstraction counts its variables without leaving them out, so that all arguments after them have the variable of another value; a time interval among the template arguments is one place and two variables. Proved for all: what is kept, the numbers of arguments, and that variables differ. Proved when the template arguments are the first variables: the template arguments; the exposed arguments before the times; all of it if the times are the last variables; and in general exactly when it fits.
* **C179** (Outcomes of goals in simulations are told). C179_full is violated: models that are not at the top level make the prediction and leave it, so that no outcome of their goals and requirements is ever told; and an input that comes when a predicted evidence has turned out wrong is not looked at. Proved: monitors of models at the top level tell all outcomes they are shown and nothing else, unless a predicted evidence turns out wrong meanwhile; others tell nothing.
* **C18** (Contradictory composite states are counter-evidence). never counter-evidence, proved for all instances whose components are facts
* **C180** (A goal has the outcome that was decided, told once, also when predictions of the evidence come true). C180_full is violated: a goal that something is absent, reached by a fact that excludes that thing, has no outcome if no prediction of such a fact comes true, two if two do, and both a failure and a success if one does after the time of the goal. Proved: goals that something is there have the outcome decided, once, in all histories; so have goals that something is absent unless they are reached by such a fact or a prediction of one comes true; with one prediction that comes true the success is told once.
* **C22** (An object with resilience n disappears at its n-th update). a view of resilience 16777220 never dies in single precision (proved); exact up to 2^23
* **C23** (Low-/high-control-value notifications count consecutive periods). the high counter is not reset by low values (witness proved)
* **C24** (Group statistics are the true extremes and mean). the lowest value is missed when it is the first or a new highest value (witness proved)
* **C26** (Saliency changes propagate along marker chains). propagation stops after one hop (witness proved)
* **C30** (Object identifiers are unique). violated by notifications injected into several groups, by MemVolatile, and after loading an image holding an object without identifier (witnesses proved); proved for histories avoiding these
* **C31** (Nothing is injected early or after invalidation). EInjectionJob does not check invalidation (witness proved); everything else proved for all histories
* **C32** (Latency averages cover exactly one sampling window). the sum is not cleared between windows (witness proved)
* **C34** (A prediction lists its simulations in the order given). get_simulation(i) reads the code at the set header plus i, not plus one plus i: the last simulation comes out first. With one simulation it is right; the queries over all simulations are right up to 255.
* **C35** (A simulated goal is pursued at most once per simulation root). There is no lock around the search and the insertion; with two cores the same target is accepted twice. Proved for calls that do not overlap.
* **C37** (A pair of models is registered together). If the second model is known and the first is not, the first is returned as usable without being registered. Proved when a new first model makes the second one new.
* **C38** (Packing a model for storage is lossless). Violated: a guard holding a data word that looks like an I_PTR (a duration of 0x84001000 us) is changed by the round trip. Proved for all models of the supported layout without such words: packing succeeds, unpacking gives the same code, the same patterns and the same groups; patterns and groups survive whatever the guards hold; references are in range and lead to the object referred to.
* **C39** (Rolling back a program overlay restores the last committed state). Violated: a position patched again after a commit gets the original word back, not the committed one; an offspring overlay loses the committed values. Proved when the positions patched since the commit held the original words at the commit, for any operations in between.
* **C40** (The reduction operator processes every matching input). The loop stops at the first input that does not meet the pattern. Proved: exactly which inputs are processed; nothing else is produced; the full statement when the inputs that meet the positive pattern come first and the others meet the negative one.
* **C41** (Generated guards let a model run backwards). Violated backwards: the end of the cause is set to the end of the premise (the duration of the command is not used), and models with a constant move the timings of the right-hand side back instead of computing those of the cause; in single precision values need not come back. Proved at the level of the words written and evaluated, for all forms, numberings, periods and values: forwards in full; backwards the timings of the premise, the beginning of the cause and (in exact arithmetic) the value.
* **C42** (Deciding whether backward chaining is possible always terminates and is right). Violated: two guards that depend on each other make the scan recurse for ever; for a variable assigned twice only the first assignment is considered; variables inside sets are not looked at. Proved for all codes: a yes is right for guards built from operators; and the scan returns and is exact when each variable is assigned once and no two guards depend on each other.
* **C43** (Requirements gate predictions as documented). Violated for a model with strong requirements only once one has expired (line 827 erases from the wrong cache: undefined behaviour); wr_enabled is decided by the last weak requirement. Proved for all caches: forward otherwise, backward, simulated forward and backward.
* **C44** (Expired requirements are dropped without touching others). Violated: with strong requirements only, an expired one is erased from the other cache. Proved otherwise, and for the other three functions and for storing.
* **C45** (A model's success rate is the fraction of its predictions that came true). Violated: the failure that phases a strong model out is not recorded; in single precision a success may lower the rate (counts of millions) and a count of 2^23 is stuck. Proved: exact rate when no failure reaches the threshold; bounds for all histories, also in single precision; monotonicity (exact; single: failures always, successes for moderate counts); the deletion rule in any arithmetic.
* **C46** (Requirement counts follow the live requirement models). Violated: killing both controllers of a model is undefined behaviour or takes the requirement off twice (the count wraps to 2^32-1); a view that goes away without a kill leaves the requirement counted. Proved for all other histories of creations and kills.
* **C48** (A monitored goal gets exactly one outcome). Full statement C48_full refuted: two cores both report, a predicted success silences the monitor, a met requirement is reported as a failure at the deadline, the input after a refuted predicted evidence is dropped, a late timer admits a late success. Proved for uninterrupted events: at most one outcome, right causes, not before the deadline, exactly one unless silenced.
* **C49** (A prediction monitor rates each prediction at most once). Full statement C49_full refuted: the secondary controller does not invalidate the prediction, so that the timer registers a failure after a success; two cores can both register. Proved for uninterrupted events for the primary controller, and at most one rated outcome for both.
* **C50** (Composite states are recognised from every admissible combination of inputs). Full statement C50_full refuted: an input that fits two patterns is only tried for the first, so that an admissible combination can be missed. Proved for all streams and all ways of matching: instances use distinct inputs, each pattern once, each input matching its pattern; live overlays stay available; every combination of first matches makes its instance.
* **C51** (A composite state depends on all its sub-models). Full statement C51_full refuted: the constructor looks at the first pattern only, once per pattern. Proved for the first pattern and every history.
* **C52** (Simulation horizons fit the time available). Full statement C52_full refuted: the share is computed in single precision, so that with factor 1 more time may be allotted than is left, and the longest horizon is undefined behaviour. Proved for all other inputs: not negative, at most the maximum, the minimum left up to two roundings; with a factor of at most 1-2^-22 the deadline is kept.
* **C53** (Arithmetic on times and infinities obeys the usual laws). The laws of times and comparisons hold for all values absent overflow. The results with infinities are not the IEEE ones (1 / +inf is +inf, 5 - (+inf) is 0); proved exactly for which operands each operator gives the IEEE result.
* **C54** (Program overlays account for every pattern). Full statement C54_full refuted: an input that fits two patterns is only tried for the first. Proved for all programs, time scopes and streams: the accounts of every overlay, availability of every live overlay, and that every admissible combination makes a complete overlay if no input fits two patterns. That rolling back restores the code is C39.
* **C56** (Number-to-text time rendering is value preserving). Full statement C56_full refuted for the least 64-bit value, whose absolute value is undefined. Proved for all other values: both texts are read back as the value they were made from.
* **C57** (The check that a model's guards hold no references is exact). Full statement C57_full refuted with four witnesses: data words of times taken for references or for pointers (one of them without end), assignments not scanned, positions inside paths followed as code. Proved exact for all code without these.
* **C58** (Input pointers designate the program pattern they were made for). False in full: the position of the word that refers to another object is kept in 8 bits, so a pattern beyond word 255 of a program is given pointers to other words (witness: a program of 262 words). Proved for all programs, inputs and nestings in which those words are among the first 256.
* **C59** (Class metadata survives being written and read). Class::read appends the stored name to the default "undefined" (proved for every buffer)
* **C60** (The object map of a saved image locates every object). serialize shifts the object map in place, so a second serialisation is wrong (witness proved)
* **C61** (Different constants do not match). raw data words are compared as numbers: "a" matches "b" (witness proved)
* **C62** (A view copied to another group keeps its standing). two witnesses proved
* **C63** (Propagated saliency changes keep their direction). witness proved
* **C64** (The object list holds every live object once). violated by notifications injected into several groups (witness proved)
* **C65** (Instances of a composite state satisfy its guards). Full statement C65_full refuted; moreover proved that the guards have no influence on any run: they are only evaluated by overlays without code, and every overlay is built with code.
* **C66** (The depth of simulations is bounded by the time there is). Full statement C66_full refuted: with the minimum horizon 0 (shipped settings) or 1 nothing is taken off. Proved for a minimum of at least 2 us, with the exact time left.
* **C67** (Anti-programs fire exactly when nothing matched for their time scope). Full statement C67_full refuted: the flag that a match occurred is cleared before any signal can see it, so that the productions are injected nonetheless; an input that fails the guards makes the overlay deaf; a volatile program may be left without overlay (front of an empty list). Proved for all histories: exactly when productions are injected, no undefined behaviour unless volatile, and single inputs are noticed if the guards always hold.
* **C68** (Every view injected into a group is filed in it). Full statement C68_full refuted: the view of a group that memory already knows is put into no map. Proved for all other kinds and routes.
* **C69** (Start moves every time of a loaded object once). Full statement C69_full refuted with three well-formed objects: an undefined time becomes a time, times in instantiated programs (and models, composite states) are not moved, a position in a chain is followed as a pointer, without end. Proved for all objects without these in which no time is reached in two ways.
* **C70** (A view lives as long as it was given to live). Full statement C70_full refuted: for goals and predictions the base period is left out. Proved for programs and instances of composite states up to 2^23 updates, and for goals and predictions if the base period is one microsecond.
* **C71** (Focus keeps the life of an input). Full statement C71_full refuted: in a group that is not slower one update is left, and a view without end ends or the conversion is undefined. Proved for slower groups, in exact arithmetic, for views that end.
* **C72** (A model is active where its rating says). Full statement C72_full refuted: a strong model that was phased out and then has an earlier prediction come true is active in both groups. Proved: what every counted outcome asks for, in any arithmetic; never both (exact arithmetic) if no success of the primary controller is counted while the model is active in the secondary group.
* **C74** (Objects saved from memory refer to the same objects when loaded). Full statement C74_full refuted: when only the models are saved, references to entities and other registered objects are dropped and the later ones take their numbers; a view whose origin group is not saved comes from the first object in the file; the object map is one word off after each model or composite state; circular references do not end. Proved for all acyclic graphs if the valid objects referred to and the groups of views are saved too; the object map if there are no models and composite states.
* **C76** (A copied structure is the structure). Full statement C76_full refuted: a data word of a time or text whose leading byte is that of a pointer is followed as a pointer, so an instant is copied as another one, or copying does not end. Proved for all structures without such words, up to 4096 words; for times exactly those instants are named.
* **C77** (An instance of a model or composite state keeps the bindings). Full statement C77_full refuted: an unbound template variable, and any variable in a time interval of the template arguments, is bound after reading to the atom that names the variable. Proved if all template variables are bound and none is in a time interval, for structures as in C76 and C80 and up to 4096 words.
* **C80** (A structure bound to a variable keeps the objects it refers to). Full statement C80_full refuted: a value keeps the words of a structure and not the references, so that the set [c] bound to a variable becomes the set of whatever the object written into has at that number, or of nothing. Proved for all structures without references. C77, C78 and C79 are proved for bindings to such structures.
* **C81** (Matching an object with a pattern finds exactly the values that make the pattern the object). Full statement C81_full refuted: a variable bound to an object takes the word it meets next for a reference without looking at its kind, so that (v v) matches an entity and the number 1.0 and reads outside the references for other numbers; structures with references, met twice by a variable, are compared without references (a read outside them); durations and texts are compared as numbers are (C61). Proved for variables that meet only references or none, structures without references where variables meet them, and texts and durations compared within the tolerance.
* **C82** (An object is an instance of its abstraction). Full statement C82_full refuted: the words of durations and texts are compared as numbers are (C61), so that durations of 200 and 100 ms get one variable and the pattern does not tell them apart; a search told to start right after the last variable reads past the map. Proved for texts and durations compared within the tolerance, structures other than sets and plain objects without pointers in them, searches that start inside the map, and at most 4096 words, references and variables. Timings in step (C82_in_step) without these conditions.
* **C83** (A new composite state covers what was observed together once). Full statement C83_full refuted: make_f_icst passes the number of the round instead of the position of the instance, so that another component is discarded for an instance with no part observed, the observation itself in the example (its pattern is then not the first); the instance made has no components_, so that it is not found again; with duplicate inputs the array of positions overflows. Proved when each instance observed has a part observed that no other of them has, without finding the new instance again.
* **C84** (The pattern found for a component of an instance is the one it was matched with). Full statement C84_full refuted: components_ is in the order of arrival, axioms first, while the index is used in the order of the patterns; two inputs in the other order than their patterns get the pattern of each other. Proved for patterns with axioms first and inputs that came in the order of the patterns; C84_found, that a pattern of the state is found without reading outside, for all orders.
* **C85** (Structures written out are read back). Full statement C85_full refuted: the tail of a structure takes the brackets after it, so that (f (g):t) is read with the tail :t); the label of an empty set goes to the next structure as well; an empty set at the end of a line is lost. Proved for all structures without tails in which empty sets have no labels, none of them alone on a line.
* **C86** (Reading source text ends). Full statement C86_full refuted: reading does not end if a string is open at the end of the text, nor if the last line is made of spaces (seekg clears eofbit while failbit stays set). Proved for all texts with no quotes in the last line that do not end with a space, in particular all whose last line ends.
* **C87** (A macro is expanded to its body with the arguments for the parameters). Full statement C87_full refuted: only the first occurrence of a parameter is replaced, what is put for one parameter is taken for a later one ((m x y) for (f x y), used as (m y z), gives (f z y)), and a parameter that is the whole body is kept. Proved where the body is not itself a parameter, has each parameter at most once, and no argument has the name of a later parameter in it.
* **C88** (Preprocessing writes the structures of a file with its macros expanded). Full statement C88_full refuted: processing stops for good at the first condition, so that sections whose conditions do not hold are written and nothing after is expanded. Proved for all files without conditions, counters, !undef (undefined behaviour, C88_order) and !load. C88_order: whether a macro is expanded before its definition depends on what else changes.
* **C89** (Classes have the same opcode under their name and in the tables). Full statement C89_full refuted: names are not checked, so that a class is lost under its name when an operator has the same; and atoms have 12 bits for the opcode while classes are counted with 16, so that the 4095th class of a file has the opcode of xpr (C89_too_many, with different names). Proved whenever no name is used twice and there are at most 4096 opcodes in use of each kind.
* **C90** (A class has the members written in its definition, templates standing for theirs). Full statement C90_full refuted: places within an argument are filled from the arguments that come after it, so that with (u {p: :~} q:) the place takes q:. Proved where arguments have places only in the last argument, and none in arguments of sets (there the list is empty, and reading its last element undefined); with names that are different and not those of a set with a number (LastClassID). A class without members is outside: front() of an empty list is undefined.
* **C91** (Compiled code reads as the source). Full statement C91_full refuted: how a class is used is kept in the class, so that reading a member of a nested object changes how the rest of a set is read ((node [(node |[] nil)] nil) is refused); names of variables before ] are not read ((mdl [x: x]) is refused); characters beyond ASCII spill over those before them in a word. Proved for ASCII strings, names of variables or functions not before ], no member inside a set read by a class that uses that class in another way, and no labels before operators that return a set or a class where anything may stand, nor where one class must stand. Labels only in models and composite states; indirections and members that are types are not in the model of the meaning.
* **C92** (Ill-typed sources do not compile). Full statement C92_full refuted: :: in a set switches the check of the number of members off for the next expression ((mdl [x: ::] (p x)) compiles where p has two members); the elements of a set are read in the way in which another member uses their class ((node [|[] (node |[] nil)] nil) compiles); an object of any class may be referred to where an object of one class must stand; a label of an operator that returns a set need not be a variable. Proved for sources where :: only stands after members of expressions and where, in a set that a member reads by a class, no member uses that class in another way, without the class of objects referred to and without labels of such operators.
* **C93** (Labels of decompiled objects tell them apart). Full statement C93_full refuted: a decompiler keeps the names of the image it decompiled before, as happens in AERA/main.cpp, where models are decompiled after objects: no objects are counted if a named object is found at the place of an unnamed one, and objects get labels of objects of other classes. Proved for the first image that a decompiler is given.
* **C94** (Ignoring named objects leaves out only these). Full statement C94_full refuted: the identifiers of named objects are kept in 16 bits, so an object without a name is left out if its identifier has the low 16 bits of that of a named one. Proved for images without such objects, by a new decompiler.
* **C95** (Decompiled objects compile to the same again). Full statement C95_full refuted: an undefined time (|ts) is written as the time -1us and comes back as a time; an undefined node is written |sid, which the compiler does not know; a variable first used in the third member of a model or later is written without a colon and is refused. Proved, for any numbers printed, for sources within the limits of C91 and without what plain leaves out: |nb, |ts, |st, |nid, numbers that are not read as they are written, the least time of 64 bits, strings of 255 bytes or with quotation marks, such variables, assignments outside guards, names of variables and functions last in a set, sets of more than thirteen elements in commands, models nested in other objects. Labels are taken as given (C93 is about them).
* **C96** (Requests to change a group take effect at its next update). Full statement C96_full refuted: the update never calls update_c_act_thr and update_c_sln_thr, so that the thresholds of c-activation and c-saliency never change. Proved for the other five values; for c-activation and c-saliency under the condition that no existing object is injected between the updates (that call updates them early). Exact arithmetic, as in C01.
* **C97** (Controllers are active exactly when their views are). Full statement C97_full refuted in five ways: whether a view was active is judged by the new threshold, so that programs stay active when the threshold rises and are not activated when it sinks; the arguments of the constructor of the group state may be evaluated in an order in which the old c-activation is read after the update; an edge that falls into an update which skips a view is lost; and so is one at the injection of an existing object. Proved, for any arithmetic, for histories without these (Calm); then also for skipped views.
* **C98** (Groups know exactly which groups see them). Full statement C98_full refuted: a threshold that rises, a view deleted for want of resilience, a group injected into one that is not c-active (inject_group does not ask), and the order of evaluation each leave a registration. Proved for histories without these (VCalm).
* **C99** (Active programs get each newly salient input once per update). Full statement C99_full refuted: whether a view was salient is judged by the new threshold, so that views above a threshold that sinks are not given to anyone, and views that rise together with it are given twice. Proved under the conditions of C97 for views whose saliency does not lie between the old and the new threshold.

## 5. Testing the theorems against wrong programs

In a copy of the model outside this directory one definition at a time is edited as a realistic bug would
(a condition dropped, a wrong field, a bound off by one, a branch swapped) and everything that depends on it
is built again. `seeded/LOG.jsonl` has one record per attempt: the definition, the edit, the claim that it
breaks, the theorems whose proofs failed, the theorems that need those, and the theorems tightened.

"Rejected" in that log means that a proof no longer builds. That alone does not show that the statement has
become false: a proof may depend on how a definition is written. The stronger evidence is in the other
direction, where no proof failed: each such edit was looked at, and either it changes nothing that can be
observed (the note says so) or a theorem was added or tightened until the repeated attempt was rejected.
