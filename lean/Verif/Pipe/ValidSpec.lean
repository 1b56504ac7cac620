import Verif.Pipe.Valid

/-! # Specification for C25 -/
namespace Verif.Pipe

/-- The keys a value names: `null` and a missing entry name none. -/
def named : Val → List Atom
  | .absent => []
  | .one .null => []
  | .one a => [a]
  | .many l => l

/-- The wiring is right: no key is produced twice, neither by two tasks nor by one, and every key a
task consumes is produced by a task. -/
def WiringOk (ts : List TaskSpec) : Prop :=
  (∀ t ∈ ts, (named t.out).Nodup) ∧
  (ts.Pairwise fun t u => ∀ k, k ∈ named t.out → k ∉ named u.out) ∧
  ∀ t ∈ ts, ∀ k, k ∈ named t.inp ∨ k ∈ named t.req → ∃ u ∈ ts, k ∈ named u.out

/-- The same for the keys the tasks have ended up with. -/
def ConnectedCfgs (cfgs : List Cfg) : Prop :=
  (∀ c ∈ cfgs, c.outKeys.Nodup) ∧
  (cfgs.Pairwise fun c d => ∀ k, k ∈ c.outKeys → k ∉ d.outKeys) ∧
  ∀ c ∈ cfgs, ∀ k, k ∈ c.inKeys ∨ k ∈ c.reqKeys → ∃ d ∈ cfgs, k ∈ d.outKeys

end Verif.Pipe
