import Verif.Abort.Model

namespace Verif.Abort

/-- Collective calls up to the first exception. -/
def calls : List Op → Nat
  | [] => 0
  | .work :: ops => calls ops
  | .coll :: ops => calls ops + 1
  | .fail _ :: _ => 0

/-- The first exception. -/
def failure : List Op → Option Exc
  | [] => none
  | .work :: ops => failure ops
  | .coll :: ops => failure ops
  | .fail e :: _ => some e

/-- The process has ended. -/
def ended (p : Proc) : Bool :=
  match p.pos with
  | .ended _ => true
  | _ => false

/-- The sum of `f 0`, ..., `f (n - 1)`. -/
def tot (f : Nat → Nat) : Nat → Nat
  | 0 => 0
  | n + 1 => tot f n + f n

/-- Steps that are done in this order of turns. -/
def moves (handler : Bool) (n : Nat) (s : Job) : List Nat → Nat
  | [] => 0
  | i :: is =>
    match (if i < n then step handler n s i else none) with
    | none => moves handler n s is
    | some s' => moves handler n s' is + 1

/-- An exception that the user would expect to be reported: an error in a task. -/
def Exc.isError : Exc → Bool
  | .ordinary => true
  | .osError => true
  | .eof => true
  | .brokenPipe => true
  | _ => false

end Verif.Abort
