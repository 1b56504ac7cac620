import Verif.Util.Model

/-!
# Specification of the cache
-/
namespace Verif.Util

variable {K V : Type} [DecidableEq K]

/-- The value can be stored: it is an array that fits. -/
def Fits (maxsize : Nat) (v : Value V) : Prop := ∃ n, v.size = some n ∧ n ≤ maxsize

instance (maxsize : Nat) (v : Value V) : Decidable (Fits maxsize v) :=
  match h : v.size with
  | none => isFalse (by rintro ⟨n, hn, _⟩; simp [h] at hn)
  | some n => if hn : n ≤ maxsize then isTrue ⟨n, h, hn⟩
    else isFalse (by rintro ⟨m, hm, hle⟩; rw [h] at hm; cases hm; exact hn hle)

/-- The operation uses key `k`: it looks it up or stores a value that fits. -/
def Uses (maxsize : Nat) (k : K) : Op K V → Prop
  | .get k' => k' = k
  | .set k' v => k' = k ∧ Fits maxsize v
  | .del _ => False

instance (maxsize : Nat) (k : K) (o : Op K V) : Decidable (Uses maxsize k o) := by
  cases o <;> unfold Uses <;> infer_instance

/-- The time of the last use of `k` in a history: the number of operations up to and including it; 0 if it
was never used. -/
def lastUse (maxsize : Nat) (k : K) : List (Op K V) → Nat
  | [] => 0
  | o :: ops =>
    if lastUse maxsize k ops ≠ 0 then lastUse maxsize k ops + 1
    else if Uses maxsize k o then 1 else 0

/-- The last value stored under `k` in a history (if it was not deleted later). -/
def lastStored (maxsize : Nat) (k : K) (ops : List (Op K V)) : Option V :=
  ops.foldl (fun r o =>
    match o with
    | .set k' v => if k' = k ∧ Fits maxsize v then some v.val else r
    | .del k' => if k' = k then none else r
    | .get _ => r) none

/-- The bytes held. -/
def bytesHeld (c : Cache K V) : Nat := (c.items.map (·.2.2)).sum

/-- The keys held. -/
def keysHeld (c : Cache K V) : List K := c.items.map (·.1)

end Verif.Util
