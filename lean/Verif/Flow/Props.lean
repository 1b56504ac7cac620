import Verif.Flow.Model

/-!
# C68: grouped tasks and flow tasks
-/
namespace Verif.Flow

variable {α σ : Type}

/-! ### Specification -/

/-- The subtasks are set up one after the other, each with arguments of its own. -/
inductive SetUp : List (Sub α σ) → List (List α) → σ → σ → Prop
  | nil (s : σ) : SetUp [] [] s s
  | cons (t : Sub α σ) (ts : List (Sub α σ)) (g : List α) (gs : List (List α)) (s s' s'' : σ) :
      t.setup s g = .ok s' → SetUp ts gs s' s'' → SetUp (t :: ts) (g :: gs) s s''

/-- The output of each subtask is the input of the next one. -/
inductive Chain : List (Sub α σ) → σ → Option α → σ → Option α → Prop
  | nil (s : σ) (x : Option α) : Chain [] s x s x
  | cons (t : Sub α σ) (ts : List (Sub α σ)) (s s' s'' : σ) (x y z : Option α) :
      t.process s x = .ok (s', y) → Chain ts s' y s'' z → Chain (t :: ts) s x s'' z

/-! ### Theorems -/

/-- **C68** (setup). If every argument of every subtask is provided, in the order of the subtasks, each subtask is set up
with its own. -/
theorem C68_setup_partial (ts : List (Sub α σ)) (gs : List (List α)) (hl : ts.map (·.nargs) = gs.map (·.length)) (s s' : σ) :
    groupSetup ts s gs.flatten = .ok s' ↔ SetUp ts gs s s' := by
  induction ts generalizing gs s with
  | nil =>
    cases gs with
    | nil =>
      simp only [groupSetup, Except.ok.injEq]
      constructor
      · rintro rfl; exact .nil s
      · rintro ⟨⟩; rfl
    | cons g gs => cases hl
  | cons t ts ih =>
    cases gs with
    | nil => cases hl
    | cons g gs =>
      rw [List.map_cons, List.map_cons, List.cons.injEq] at hl
      unfold groupSetup
      rw [List.flatten_cons, hl.1, List.take_left, List.drop_left]
      unfold callSetup
      rw [if_neg (by omega)]
      constructor
      · intro h
        cases h1 : t.setup s g with
        | error e => rw [h1] at h; cases h
        | ok s1 =>
          rw [h1] at h
          exact .cons _ _ _ _ _ _ _ h1 ((ih gs hl.2 s1).1 h)
      · intro h
        cases h with
        | cons _ _ _ _ _ s1 _ h1 h2 =>
          rw [h1]
          exact (ih gs hl.2 s1).2 h2

/-- **C68** (process). A grouped task runs the subtasks in order, giving each the output of the one before. -/
theorem C68_process (ts : List (Sub α σ)) (s s' : σ) (x z : Option α) :
    groupProcess ts s x = .ok (s', z) ↔ Chain ts s x s' z := by
  induction ts generalizing s x with
  | nil =>
    simp only [groupProcess, Except.ok.injEq, Prod.mk.injEq]
    constructor
    · rintro ⟨rfl, rfl⟩; exact .nil s x
    · rintro ⟨⟩; exact ⟨rfl, rfl⟩
  | cons t ts ih =>
    unfold groupProcess
    constructor
    · intro h
      cases h1 : t.process s x with
      | error e => rw [h1] at h; cases h
      | ok r =>
        obtain ⟨s1, y⟩ := r
        rw [h1] at h
        exact .cons _ _ _ _ _ _ _ _ h1 ((ih s1 y).1 h)
    · intro h
      cases h with
      | cons _ _ _ s1 _ _ y _ h1 h2 =>
        rw [h1]
        exact (ih s1 y).2 h2

/-- **C68** (groups of groups). Grouping is associative. -/
theorem C68_nested (ts ts' : List (Sub α σ)) (s : σ) (x : Option α) :
    groupProcess (ts ++ ts') s x = (groupProcess ts s x).bind fun r => groupProcess ts' r.1 r.2 := by
  induction ts generalizing s x with
  | nil => rfl
  | cons t ts ih =>
    rw [List.cons_append, groupProcess, groupProcess]
    cases t.process s x with
    | error e => rfl
    | ok r => exact ih _ _

/-- **C68** (flow). Gathering tasks give their inputs as a list in the order of the keys; forwarding tasks give on what
they are given. -/
theorem C68_flow_partial (clone : α → α) (n : α) :
    (∀ l, callNext clone n gatherInputs l = .ok (.list l)) ∧ (∀ x, callNext clone n passOn [x] = .ok (.obj x)) ∧
    ∀ x, callNext clone n waitUntil [x] = .ok (.obj x) := ⟨fun _ => rfl, fun _ => rfl, fun _ => rfl⟩

/-! ### A case -/

/-- Takes two arguments and notes them; adds the first. -/
def adder : Sub Nat (List Nat) := ⟨2, 0, fun s l => .ok (s ++ l), fun s x => .ok (s, x.map (· + s.headD 0))⟩

/-- Takes one argument and notes it; doubles. -/
def doubler : Sub Nat (List Nat) := ⟨1, 0, fun s l => .ok (s ++ l), fun s x => .ok (s, x.map (· * 2))⟩

/-- Has no `setup`; gives nothing for odd numbers, and for nothing gives 100. -/
def evens : Sub Nat (List Nat) := noSetup fun s x => .ok (s, match x with
  | some x => if x % 2 = 0 then some x else none
  | none => some 100)

example : groupSetup [adder, doubler] [] [5, 6, 7] = .ok [5, 6, 7] ∧
    groupProcess [adder, doubler] [5, 6, 7] (some 1) = .ok ([5, 6, 7], some 12) := by exact ⟨rfl, rfl⟩

example : SetUp [adder, doubler] [[5, 6], [7]] [] [5, 6, 7] := (C68_setup_partial _ [[5, 6], [7]] rfl _ _).1 rfl

/-! ### Where the property fails -/

/-- C68: a subtask that has no `setup` of its own takes an argument away from the ones that come after it. -/
theorem C68_no_setup_violated : groupSetup [evens, doubler] [] [7] = .error .typeError ∧
    groupSetup [doubler, evens] [] [7] = .ok [7] := ⟨rfl, rfl⟩

/-- C68: arguments that no subtask takes are dropped without an error. -/
theorem C68_surplus_violated (ts : List (Sub α σ)) (gs : List (List α)) (hl : ts.map (·.nargs) = gs.map (·.length)) (s s' : σ)
    (h : SetUp ts gs s s') (more : List α) : groupSetup ts s (gs.flatten ++ more) = .ok s' := by
  induction h with
  | nil s => rfl
  | cons t ts g gs s s1 s2 h1 h2 ih =>
    rw [List.map_cons, List.map_cons, List.cons.injEq] at hl
    unfold groupSetup
    rw [List.flatten_cons, hl.1, List.append_assoc, List.take_left, List.drop_left]
    unfold callSetup
    rw [if_neg (by omega), h1]
    exact ih hl.2

example : SetUp [doubler] [[7]] [] [7] := .cons _ _ _ _ _ _ _ rfl (.nil _)

/-- C68: a subtask that gives nothing does not end the iteration: the ones after it are called with `None`. -/
theorem C68_none_violated : groupProcess [evens, evens] [] (some 3) = .ok ([], some 100) := rfl

/-- C68: a task that is to copy its inputs gives nothing and stops at the first of them; so does the one that is to
delete them. They define `process`, which nothing calls. -/
theorem C68_copy_violated (clone : α → α) (n x : α) :
    callNext clone n makeCopy [x] = .ok .stop ∧ callNext clone n delete [x] = .ok .stop := ⟨rfl, rfl⟩

end Verif.Flow
