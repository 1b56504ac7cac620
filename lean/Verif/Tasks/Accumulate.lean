import Mathlib.Tactic.Ring

/-!
# C44: `AccumulateList`

Models `caput/pipeline/tasklib/flow.py:9-74` and proves what it returns over a whole stream of inputs. That
the pipeline calls `next` once per input in order, and then `finish` once, is C20 and C21.
-/
namespace Verif.Tasks

variable {α : Type}

/-- flow.py:28-49 `next`: the new list and what is returned. -/
def accNext (groupSize : Option Int) (items : List α) (x : α) : List α × Option (List α) :=
  let items' := items ++ [x]
  match groupSize with
  | some g => if (items'.length : Int) ≥ g then ([], some items') else (items', none)
  | none => (items', none)

/-- flow.py:51-74 `finish`. -/
def accFinish (groupSize : Option Int) (items : List α) : Option (List α) :=
  match groupSize with
  | some _ => none
  | none => some items

/-- The calls of `next` for a stream: the list at the end and everything returned that is not `None`. -/
def accRun (groupSize : Option Int) : List α → List α → List α × List (List α)
  | items, [] => (items, [])
  | items, x :: xs =>
    match accNext groupSize items x with
    | (items', none) => accRun groupSize items' xs
    | (items', some out) => ((accRun groupSize items' xs).1, out :: (accRun groupSize items' xs).2)

/-- All outputs for a stream, that of `finish` last. -/
def accumulate (groupSize : Option Int) (xs : List α) : List (List α) :=
  (accRun groupSize [] xs).2 ++ (accFinish groupSize (accRun groupSize [] xs).1).toList

theorem accRun_fill (g : Nat) (items xs : List α) (h : items.length + xs.length < g) :
    accRun (some (g : Int)) items xs = (items ++ xs, []) := by
  induction xs generalizing items with
  | nil => simp [accRun]
  | cons x xs ih =>
    simp only [List.length_cons] at h
    have hn : accNext (some (g : Int)) items x = (items ++ [x], none) := by
      unfold accNext
      simp only [List.length_append, List.length_singleton]
      rw [if_neg (by omega)]
    rw [accRun, hn]
    simp only
    rw [ih (items ++ [x]) (by simp; omega)]
    simp

theorem accRun_full (g : Nat) (items xs rest : List α) (hx : xs ≠ [])
    (h : items.length + xs.length = g) :
    accRun (some (g : Int)) items (xs ++ rest) =
      ((accRun (some (g : Int)) [] rest).1, (items ++ xs) :: (accRun (some (g : Int)) [] rest).2) := by
  induction xs generalizing items with
  | nil => exact absurd rfl hx
  | cons x xs ih =>
    simp only [List.length_cons] at h
    by_cases hxs : xs = []
    · subst hxs
      simp only [List.length_nil] at h
      have hn : accNext (some (g : Int)) items x = ([], some (items ++ [x])) := by
        unfold accNext
        simp only [List.length_append, List.length_singleton]
        rw [if_pos (by omega)]
      rw [List.cons_append, accRun, hn]
      simp
    · have hpos : 0 < xs.length := List.length_pos_iff.2 hxs
      have hn : accNext (some (g : Int)) items x = (items ++ [x], none) := by
        unfold accNext
        simp only [List.length_append, List.length_singleton]
        rw [if_neg (by omega)]
      rw [List.cons_append, accRun, hn]
      simp only
      rw [ih (items ++ [x]) hxs (by simp; omega)]
      simp

/-- C44. With a group size `g ≥ 1`, output number `k` consists of the inputs `k g` to `k g + g - 1`, and there
is one for every complete group. -/
theorem C44_groups (g : Nat) (hg : 1 ≤ g) (xs : List α) (k : Nat) :
    (accumulate (some (g : Int)) xs)[k]? =
      if k * g + g ≤ xs.length then some ((xs.drop (k * g)).take g) else none := by
  simp only [accumulate, accFinish, Option.toList_none, List.append_nil]
  induction hn : xs.length using Nat.strongRecOn generalizing xs k with
  | _ n ih =>
    by_cases hlt : n < g
    · rw [accRun_fill g [] xs (by simp; omega), if_neg]
      · simp
      · have : 0 ≤ k * g := Nat.zero_le _
        omega
    · have hsplit : xs = xs.take g ++ xs.drop g := (List.take_append_drop g xs).symm
      have htake : (xs.take g).length = g := by simp; omega
      have hne : xs.take g ≠ [] := by
        intro h
        rw [h] at htake
        simp at htake
        omega
      have hrun := accRun_full g [] (xs.take g) (xs.drop g) hne (by simpa using htake)
      rw [← hsplit] at hrun
      rw [hrun]
      cases k with
      | zero => simp [show g ≤ n by omega]
      | succ k =>
        have := ih (xs.drop g).length (by simp; omega) (xs.drop g) k rfl
        simp only [List.getElem?_cons_succ]
        rw [this]
        have he : (k + 1) * g = k * g + g := by ring
        simp only [List.length_drop, List.drop_drop, he, Nat.add_comm g (k * g), hn]
        by_cases hc : k * g + g ≤ n - g
        · rw [if_pos hc, if_pos (by omega)]
        · rw [if_neg hc, if_neg (by omega)]

/-- C44. With a group size, the outputs together are a prefix of the inputs, all have the same size, and
fewer than `g` inputs are left out. -/
theorem C44_prefix (g : Nat) (hg : 1 ≤ g) (xs : List α) :
    (accumulate (some (g : Int)) xs).flatten <+: xs ∧
    (∀ out ∈ accumulate (some (g : Int)) xs, out.length = g) ∧
    xs.length - (accumulate (some (g : Int)) xs).flatten.length < g := by
  simp only [accumulate, accFinish, Option.toList_none, List.append_nil]
  induction hn : xs.length using Nat.strongRecOn generalizing xs with
  | _ n ih =>
    by_cases hlt : n < g
    · rw [accRun_fill g [] xs (by simp; omega)]
      simp
      omega
    · have hsplit : xs = xs.take g ++ xs.drop g := (List.take_append_drop g xs).symm
      have htake : (xs.take g).length = g := by simp; omega
      have hne : xs.take g ≠ [] := by
        intro h
        rw [h] at htake
        simp at htake
        omega
      have hrun := accRun_full g [] (xs.take g) (xs.drop g) hne (by simpa using htake)
      rw [← hsplit] at hrun
      rw [hrun]
      obtain ⟨h1, h2, h3⟩ := ih (xs.drop g).length (by simp; omega) (xs.drop g) rfl
      refine ⟨?_, ?_, ?_⟩
      · simp only [List.nil_append, List.flatten_cons]
        conv => rhs; rw [hsplit]
        exact (List.prefix_append_right_inj _).2 h1
      · intro out ho
        simp only [List.nil_append, List.mem_cons] at ho
        rcases ho with ho | ho
        · rw [ho]; exact htake
        · exact h2 out ho
      · simp only [List.nil_append, List.flatten_cons, List.length_append, htake]
        simp only [List.length_drop] at h3
        omega

/-- C44. Without a group size there is exactly one output, the whole stream. -/
theorem C44_all (xs : List α) : accumulate none xs = [xs] := by
  have : ∀ items : List α, accRun none items xs = (items ++ xs, []) := by
    induction xs with
    | nil => intro items; simp [accRun]
    | cons x xs ih =>
      intro items
      rw [accRun]
      simp only [accNext]
      rw [ih]
      simp
  simp [accumulate, this, accFinish]

example : accumulate (some 2) [1, 2, 3, 4, 5] = [[1, 2], [3, 4]] := by decide +kernel

example : accumulate none [1, 2, 3] = [[1, 2, 3]] := C44_all _

end Verif.Tasks
