import Verif.Pipe.Model

/-!
# Specifications for C20 - C24

They speak only about the log of hook calls, that is what the authors of the tasks see.
-/
namespace Verif.Pipe
variable {α : Type}

/-- Queues of a stage, if it has any. -/
def Stage.queues : Stage α → Option (List (List (Option α)))
  | .setup _ q => some q
  | .next q => some q
  | .finish q => q
  | .raised q => q

/-- The hooks called on a task, in order. -/
def hooksOf (i : Nat) (log : List (Event α)) : List Hook :=
  (log.filter fun e => decide (e.task = i)).map Event.hook

/-- The arguments `next` of a task has been called with in position `j`, in order. -/
def received (i j : Nat) (log : List (Event α)) : List (Option α) :=
  (log.filter fun e => decide (e.task = i ∧ e.hook = .next)).filterMap fun e => e.args[j]?

/-- The products in the return value of a hook, by key: a single key takes the returned object (the
first item of a tuple); a list of keys takes the items of the returned sequence. -/
def outputs (c : Cfg) : Ret α → List (Key × Option α)
  | .obj p => if c.bareOut then (c.outKeys.take 1).map fun k => (k, some p) else []
  | .tup l => c.outKeys.zip l
  | .lst w l => if c.bareOut then (c.outKeys.take 1).map fun k => (k, some w) else c.outKeys.zip l
  | _ => []

/-- The products one event emits under a key. -/
def emittedBy (cfgs : List Cfg) (k : Key) (e : Event α) : List (Option α) :=
  match cfgs[e.task]? with
  | none => []
  | some c => ((outputs c e.ret).filter fun x => decide (x.1 = k)).map Prod.snd

/-- All products emitted under a key, in order. -/
def emitted (cfgs : List Cfg) (k : Key) (log : List (Event α)) : List (Option α) :=
  log.flatMap (emittedBy cfgs k)

/-- An allowed sequence of hooks: nothing; `setup` and any number of `next`; and either of them
followed by one `finish`. -/
inductive Lifecycle : List Hook → Prop where
  | nothing : Lifecycle []
  | going (n : Nat) : Lifecycle (.setup :: List.replicate n .next)
  | skipped : Lifecycle [.finish]
  | complete (n : Nat) : Lifecycle ((.setup :: List.replicate n .next) ++ [.finish])

/-- Number of calls of `next` of a task that returned something. -/
def emissions (i : Nat) (log : List (Event α)) : Nat :=
  (log.filter fun e => decide (e.task = i ∧ e.hook = .next) &&
    (match e.ret with | .obj _ => true | .tup _ => true | .lst _ _ => true | _ => false)).length

/-- The task asked to stop. -/
def askedToStop (i : Nat) (log : List (Event α)) : Prop :=
  ∃ e ∈ log, e.task = i ∧ e.hook = .next ∧ e.ret = .stop

/-- The task reached the limit on its outputs. -/
def hitLimit (c : Cfg) (i : Nat) (log : List (Event α)) : Prop :=
  ∃ l, c.limit = some l ∧ l ≤ (emissions i log : Int) ∧ 0 < emissions i log

def returnsNone : Ret α → Bool
  | .none => true
  | _ => false

/-- Number of calls of `next` of a task without any input that returned `None`. -/
def idle (i : Nat) (log : List (Event α)) : Nat :=
  (log.filter fun e => decide (e.task = i ∧ e.hook = .next) && (e.args.isEmpty &&
    returnsNone e.ret)).length

/-- Configurations as `_setup_keys` makes them: a bare `out` is one key. -/
def WellFormed (cfgs : List Cfg) : Prop := ∀ c ∈ cfgs, c.bareOut = true → c.outKeys.length = 1

instance (cfgs : List Cfg) : Decidable (WellFormed cfgs) :=
  inferInstanceAs (Decidable (∀ c ∈ cfgs, c.bareOut = true → c.outKeys.length = 1))

end Verif.Pipe
