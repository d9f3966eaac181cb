import Verif.Cores.Model
/-!
# What stopping should do
-/
namespace Verif.Cores

/-- The states of an executive of so many cores, in all executions. -/
def Reach (nRed nTime jRed jTime : Nat) (s : State) : Prop := ∃ as, run (init nRed nTime jRed jTime) as = some s

/-- Every core has left its loop. -/
def Ended (s : State) : Prop := (∀ c ∈ s.red.cores, c = .done) ∧ ∀ c ∈ s.time.cores, c = .done

/-- Some thread other than those of delegates not yet there can go on. -/
def Moves (s : State) : Prop := ∃ a, a ≠ .enter ∧ ∃ s', step s a = some s'

/-- C158 in one state. -/
structure C158At (nRed nTime : Nat) (s : State) : Prop where
  /-- when stop has returned all is over -/
  over : s.stop = .returned → Ended s ∧ s.live = 0
  all : s.stop = .returned → s.born = 0 ∧ s.stuck = false
  /-- what has been deleted is not used -/
  safe : s.ub = false
  /-- stop returns: while it has not, a thread can go on -/
  moves : s.stop ≠ .idle → s.stop ≠ .returned → Moves s
  /-- no core waits for ever once the state has been set -/
  goes : s.stopped = true → ∀ k i c, (s.pool k).cores[i]? = some c → c ≠ .done → ∃ s', step s (.core k i) = some s'
  /-- no more than one job is begun by each core once the state has been set -/
  few : s.late ≤ nRed + nTime
  /-- no delegate waits for ever -/
  free : s.stuck = false

/-- The steps a core has to go once the state has been set. -/
def ahead : Core → Nat
  | .top => 1
  | .pop => 3
  | .busy .work => 2
  | .busy .quit => 1
  | .done => 0

/-- The steps all cores have to go. -/
def State.ahead (s : State) : Nat := (s.red.cores.map Cores.ahead).sum + (s.time.cores.map Cores.ahead).sum

/-- C158: stop returns, and then all is over. -/
def C158_full : Prop := ∀ nRed nTime jRed jTime s, Reach nRed nTime jRed jTime s → C158At nRed nTime s

end Verif.Cores
