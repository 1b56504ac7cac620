/-!
# Model of the block-splitting helpers

Models `caput/util/arraytools.py` (`split_m`, `partition_list`) and the wrappers in
`caput/util/mpitools.py` (`split_all`, `split_local`, `partition_list_mpi`, `mpirange`,
`parallel_map`). Exceptions are values of `PyErr`.
-/
namespace Verif.Split

/-- Python exceptions raised by the modelled functions. -/
inductive PyErr where
  | zeroDivision
  | valueError
  | indexError
  | mpiError
  deriving DecidableEq, Repr

/-- `np.cumsum` (used at arraytools.py:82 and :130). -/
def cumsumFrom (acc : Nat) : List Nat → List Nat
  | [] => []
  | x :: xs => (acc + x) :: cumsumFrom (acc + x) xs

/-- `np.cumsum` of a list. -/
def cumsum (xs : List Nat) : List Nat := cumsumFrom 0 xs

/-- arraytools.py:128: `part = base * ones(m) + (arange(m) < rem)`. -/
def partM (n m : Nat) : List Nat :=
  (List.range m).map fun i => n / m + (if i < n % m then 1 else 0)

/-- The three rows returned by `split_m`. -/
structure Split where
  num : List Nat
  start : List Nat
  stop : List Nat
  deriving DecidableEq, Repr

/-- arraytools.py:102-132 `split_m(n, m)`. `n` is restricted to non-negative integers (the only
use in the code base); `m = 0` raises `ZeroDivisionError` at line 125. -/
def splitM (n m : Nat) : Except PyErr Split :=
  if m = 0 then .error .zeroDivision
  else
    let part := partM n m
    let bound := cumsum (0 :: part)
    .ok ⟨part, bound.take m, (bound.drop 1).take m⟩

/-- mpitools.py:534-562 `split_local(n, comm)` on the process with the given rank in a
communicator of the given size (`split_all`, mpitools.py:506-531, is `splitM n size`). -/
def splitLocal (n size rank : Nat) : Except PyErr (Nat × Nat × Nat) :=
  match splitM n size with
  | .error e => .error e
  | .ok s =>
    match s.num[rank]?, s.start[rank]?, s.stop[rank]? with
    | some p, some a, some b => .ok (p, a, b)
    | _, _, _ => .error .indexError

/-- The `method` argument of `partition_list`. -/
inductive Method where
  | con
  | alt
  | rand
  | other
  deriving DecidableEq, Repr

/-- arraytools.py:76-84 `_partition(N, n, i)`: bounds of the `i`-th of `n` pieces of `N` numbers. -/
def partitionBounds (N n i : Nat) : Except PyErr (Nat × Nat) :=
  if n = 0 then .error .zeroDivision
  else
    let base := N / n
    let rem := N % n
    let numLst := List.replicate rem (base + 1) ++ List.replicate (n - rem) base
    let cum := cumsum (0 :: numLst)
    match cum[i]?, cum[i + 1]? with
    | some a, some b => .ok (a, b)
    | _, _ => .error .indexError

/-- Every `n`-th element of a list, starting with its first (Python `l[::n]`, `n ≥ 1`). -/
def everyNth {α : Type} (n : Nat) : List α → List α
  | [] => []
  | x :: xs => x :: everyNth n (xs.drop (n - 1))
  termination_by l => l.length
  decreasing_by simp only [List.length_drop, List.length_cons]; omega

/-- Python `full_list[i::n]` for `n ≥ 1` and `i ≥ 0` (arraytools.py:93). -/
def strided {α : Type} (xs : List α) (i n : Nat) : List α := everyNth n (xs.drop i)

/-- arraytools.py:50-99 `partition_list(full_list, i, n, method)`. The random permutation drawn at
line 96 is the argument `perm` (a list of the indices `0..N-1` in some order). -/
def partitionList {α : Type} (xs : List α) (i n : Nat) (m : Method) (perm : List Nat) :
    Except PyErr (List α) :=
  match partitionBounds xs.length n i with
  | .error e => .error e
  | .ok (start, stop) =>
    match m with
    | .con => .ok ((xs.drop start).take (stop - start))
    | .alt => .ok (strided xs i n)
    | .rand => .ok (((perm.drop start).take (stop - start)).filterMap (xs[·]?))
    | .other => .error .valueError

/-- Python's stable `sorted(l, key=lambda item: item[0])` (mpitools.py:714). -/
def insertByKey {β : Type} (x : Nat × β) : List (Nat × β) → List (Nat × β)
  | [] => [x]
  | y :: ys => if x.1 ≤ y.1 then x :: y :: ys else y :: insertByKey x ys

/-- Insertion sort by the first component; stable like Python's `sorted`. -/
def sortByKey {β : Type} : List (Nat × β) → List (Nat × β)
  | [] => []
  | x :: xs => insertByKey x (sortByKey xs)

/-- What one process contributes in `parallel_map` (mpitools.py:691-697): enumerate, take this
rank's partition, apply the function. -/
def localResults {α β : Type} (f : α → β) (xs : List α) (m : Method) (size rank : Nat) :
    Except PyErr (List (Nat × β)) :=
  match partitionList ((List.range xs.length).zip xs) rank size m [] with
  | .error e => .error e
  | .ok l => .ok (l.map fun p => (p.1, f p.2))

/-- `comm.allgather`: collect the contributions of ranks `0..size-1`; an exception on any rank
aborts the collective. -/
def gatherAll {γ : Type} (size : Nat) (contrib : Nat → Except PyErr γ) : Except PyErr (List γ) :=
  (List.range size).mapM contrib

/-- mpitools.py:652-722 `parallel_map`: the value returned on process `rank`; `root = none` gathers
on all processes. `size` is the communicator size (`size = 1` is the shortcut at line 687). Only
the deterministic methods `con` and `alt` (and the error case) are represented; 'rand' is in
`Verif.Split` (Share.lean). A root that is not a rank is an error of MPI. -/
def parallelMap {α β : Type} (f : α → β) (xs : List α) (root : Option Nat) (m : Method)
    (size rank : Nat) : Except PyErr (Option (List β)) :=
  if size = 1 then .ok (some (xs.map f))
  else
    match gatherAll size (localResults f xs m size) with
    | .error e => .error e
    | .ok rlist =>
      if root.any (fun k => decide (size ≤ k)) then .error .mpiError
      else if root = none ∨ root = some rank then
        .ok (some ((sortByKey rlist.flatten).map Prod.snd))
      else .ok none

end Verif.Split
