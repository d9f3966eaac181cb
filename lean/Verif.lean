import Verif.Abduce.Lemmas
import Verif.Abduce.Model
import Verif.Abduce.Props
import Verif.Abduce.Spec
import Verif.Abduce.Wait
import Verif.Absi.Model
import Verif.Absi.Props
import Verif.Absi.Spec
import Verif.Abstract.Lemmas
import Verif.Abstract.Main
import Verif.Abstract.Model
import Verif.Abstract.Props
import Verif.Abstract.Spec
import Verif.Abstract.Walk
import Verif.Ackg.Model
import Verif.Ackg.Props
import Verif.Ackg.Spec
import Verif.Assume.Model
import Verif.Assume.Props
import Verif.Assume.Spec
import Verif.Atom.Float
import Verif.Atom.Lemmas
import Verif.Atom.Model
import Verif.Atom.Props
import Verif.Atom.Spec
import Verif.Bind.Closed
import Verif.Bind.Lemmas
import Verif.Bind.Model
import Verif.Bind.Props
import Verif.Bind.Spec
import Verif.BindMap.Model
import Verif.BindMap.Props
import Verif.CellList.Gc
import Verif.CellList.Lemmas
import Verif.CellList.Model
import Verif.CellList.Props
import Verif.Classes.Files
import Verif.Classes.Model
import Verif.Classes.Opcodes
import Verif.Classes.Props
import Verif.Classes.Run
import Verif.Classes.Sim
import Verif.Classes.Spec
import Verif.Commit.Lemmas
import Verif.Commit.Model
import Verif.Commit.Props
import Verif.Commit.Spec
import Verif.Compile.Core
import Verif.Compile.Leaves
import Verif.Compile.Lemmas
import Verif.Compile.Main
import Verif.Compile.Model
import Verif.Compile.Objects
import Verif.Compile.Props
import Verif.Compile.Spec
import Verif.Compile.Steps
import Verif.Compile.Struct
import Verif.Cores.Model
import Verif.Cores.Props
import Verif.Cores.Spec
import Verif.Counts.Model
import Verif.Counts.Props
import Verif.Cov.Model
import Verif.Cov.Props
import Verif.Cov.Spec
import Verif.Cst.Model
import Verif.Cst.Props
import Verif.Ctx.Copy
import Verif.Ctx.Lemmas
import Verif.Ctx.Model
import Verif.Ctx.Props
import Verif.Ctx.Spec
import Verif.Cycle.Given
import Verif.Cycle.Inv
import Verif.Cycle.Lemmas
import Verif.Cycle.Model
import Verif.Cycle.Props
import Verif.Cycle.Spec
import Verif.Decomp.Leaves
import Verif.Decomp.Lemmas
import Verif.Decomp.Main
import Verif.Decomp.Model
import Verif.Decomp.Objects
import Verif.Decomp.Props
import Verif.Decomp.Spec
import Verif.Drives.Model
import Verif.Drives.Props
import Verif.Drives.Spec
import Verif.Eval.Lemmas
import Verif.Eval.Main
import Verif.Eval.Model
import Verif.Eval.Props
import Verif.Eval.Spec
import Verif.Evidence.Model
import Verif.Evidence.Props
import Verif.EvidenceCache.Model
import Verif.EvidenceCache.Props
import Verif.Extract.Model
import Verif.Extract.Props
import Verif.Extrema.Model
import Verif.Extrema.Props
import Verif.F32.Model
import Verif.F32.Order
import Verif.Focus.Counts
import Verif.Focus.Lemmas
import Verif.Focus.Memory
import Verif.Focus.Model
import Verif.Focus.Props
import Verif.Focus.Spec
import Verif.Focus.Targets
import Verif.Focus.Watch
import Verif.Gev.Model
import Verif.Gev.Props
import Verif.Gev.Spec
import Verif.GroupViews.Model
import Verif.GroupViews.Props
import Verif.GuardScan.Model
import Verif.GuardScan.Props
import Verif.Guards.Layout
import Verif.Guards.Lemmas
import Verif.Guards.Model
import Verif.Guards.Props
import Verif.HasRef.Model
import Verif.HasRef.Props
import Verif.Icst.Model
import Verif.Icst.Props
import Verif.Icst.Spec
import Verif.Image.ClassLemmas
import Verif.Image.Lemmas
import Verif.Image.Model
import Verif.Image.Props
import Verif.Inless.Model
import Verif.Inless.Props
import Verif.Inless.Spec
import Verif.Inp.Model
import Verif.Inp.Props
import Verif.Inp.Spec
import Verif.InputPtr.Model
import Verif.InputPtr.Props
import Verif.Ins.Model
import Verif.Ins.Props
import Verif.Ins.Spec
import Verif.Instance.Lemmas
import Verif.Instance.Model
import Verif.Instance.Position
import Verif.Instance.Props
import Verif.Instance.Read
import Verif.Instance.Spec
import Verif.Invalidation.Model
import Verif.Invalidation.Props
import Verif.Keep.Lemmas
import Verif.Keep.Model
import Verif.Keep.Props
import Verif.Keep.Spec
import Verif.Labels.Lemmas
import Verif.Labels.Model
import Verif.Labels.Props
import Verif.Lapse.Cascade
import Verif.Lapse.Lemmas
import Verif.Lapse.Model
import Verif.Lapse.Props
import Verif.Lapse.Spec
import Verif.Law.Arg
import Verif.Law.Calc
import Verif.Law.Find
import Verif.Law.Model
import Verif.Law.Props
import Verif.Law.Spec
import Verif.Lay.Model
import Verif.Lay.Props
import Verif.Lay.Spec
import Verif.Learn.Lemmas
import Verif.Learn.Model
import Verif.Learn.Props
import Verif.Learn.Spec
import Verif.Lifetime.Model
import Verif.Lifetime.Props
import Verif.LoadTimes.Lemmas
import Verif.LoadTimes.Model
import Verif.LoadTimes.Props
import Verif.Macro.Expand
import Verif.Macro.Model
import Verif.Macro.Process
import Verif.Macro.Props
import Verif.Marks.Model
import Verif.Marks.Props
import Verif.Marks.Spec
import Verif.Match.Constants
import Verif.Match.Model
import Verif.Match.Props
import Verif.Meta.Model
import Verif.Meta.Props
import Verif.Meta.Spec
import Verif.Mix.Model
import Verif.Mix.Props
import Verif.Mix.Spec
import Verif.ModSet.Model
import Verif.ModSet.Props
import Verif.ModelBase.Model
import Verif.ModelBase.Props
import Verif.Monitors.Model
import Verif.Monitors.Props
import Verif.Observe.Model
import Verif.Observe.Props
import Verif.Observe.Spec
import Verif.Oper.Model
import Verif.Oper.Props
import Verif.Oper.Spec
import Verif.Ops.Model
import Verif.Ops.Props
import Verif.Overlay.Model
import Verif.Overlay.Props
import Verif.Pack.Lemmas
import Verif.Pack.Model
import Verif.Pack.Props
import Verif.Perf.Model
import Verif.Perf.Props
import Verif.Pgm.Fires
import Verif.Pgm.Model
import Verif.Pgm.Props
import Verif.Predict.Chained
import Verif.Predict.Lemmas
import Verif.Predict.Model
import Verif.Predict.Props
import Verif.Predict.Spec
import Verif.Prods.Lemmas
import Verif.Prods.Model
import Verif.Prods.Props
import Verif.Prods.Spec
import Verif.Promote.Model
import Verif.Promote.Props
import Verif.Promote.Spec
import Verif.Propagation.Model
import Verif.Propagation.Props
import Verif.Rating.Activation
import Verif.Rating.Model
import Verif.Rating.Props
import Verif.Red.Model
import Verif.Red.Props
import Verif.Requirements.Model
import Verif.Requirements.Props
import Verif.Sched.Lemmas
import Verif.Sched.Model
import Verif.Sched.Props
import Verif.Screen.Model
import Verif.Screen.Props
import Verif.Screen.Spec
import Verif.Screen.Table
import Verif.SimHorizon.Model
import Verif.SimHorizon.Props
import Verif.Simout.Model
import Verif.Simout.Props
import Verif.Simout.Spec
import Verif.Sims.Model
import Verif.Sims.Props
import Verif.Snapshot.Model
import Verif.Snapshot.Props
import Verif.Source.Ends
import Verif.Source.Lemmas
import Verif.Source.Model
import Verif.Source.Props
import Verif.Source.Round
import Verif.Source.Spec
import Verif.Store.Model
import Verif.Store.Props
import Verif.Subgoal.Model
import Verif.Subgoal.Props
import Verif.Subgoal.Spec
import Verif.Tcp.Data
import Verif.Tcp.Lemmas
import Verif.Tcp.Model
import Verif.Tcp.Order
import Verif.Tcp.Props
import Verif.Tcp.Spec
import Verif.TestWorld.Lemmas
import Verif.TestWorld.Model
import Verif.TestWorld.Props
import Verif.TestWorld.Spec
import Verif.TimeText.Model
import Verif.TimeText.Props
import Verif.Timed.Model
import Verif.Timed.Props
import Verif.Timed.Spec
import Verif.Timings.Model
import Verif.Timings.Props
import Verif.Tpl.Model
import Verif.Tpl.Props
import Verif.Tpl.Spec
import Verif.Typed.Lemmas
import Verif.Typed.Main
import Verif.Typed.Objects
import Verif.Typed.Props
import Verif.Typed.Sets
import Verif.Typed.Spec
import Verif.Typed.Steps
import Verif.Unify.Lemmas
import Verif.Unify.Main
import Verif.Unify.Model
import Verif.Unify.Props
import Verif.Unify.Spec
import Verif.Unify.Walk
import Verif.Upr.Model
import Verif.Upr.Props
import Verif.Usr.Apply
import Verif.Usr.Eval
import Verif.Usr.Lemmas
import Verif.Usr.Model
import Verif.Usr.Props
import Verif.Usr.Quat
import Verif.Usr.Scale
import Verif.Usr.Spec
import Verif.Values.Lemmas
import Verif.Values.Model
import Verif.Values.Props
import Verif.Values.Refs
import Verif.ViewCtl.Model
import Verif.ViewCtl.Props
import Verif.Words.Lemmas
import Verif.Words.Model
import Verif.Words.Props
import Verif.Axioms
