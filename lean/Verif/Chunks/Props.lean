import Verif.Chunks.Lemmas

/-!
# C109: processes that write one Zarr array at the same time
-/
namespace Verif.Chunks

variable {κ α : Type} [DecidableEq κ]

/-- The last write of these to the cell `x` of chunk `c` has the value `v`. -/
def LastWrite (ws : List (Write κ α)) (c : κ) (x : Nat) (v : α) : Prop :=
  ∃ pre w post, ws = pre ++ w :: post ∧ w.chunk = c ∧ w.cells x = some v ∧ ∀ w' ∈ post, w'.chunk = c → w'.cells x = none

/-- No two processes write the same cell. They may write the same chunk. -/
def Disjoint (n : Nat) (prog : Nat → List (List (Write κ α))) : Prop :=
  ∀ i < n, ∀ j < n, i ≠ j → ∀ w ∈ (prog i).flatten, ∀ w' ∈ (prog j).flatten, w.chunk = w'.chunk → ∀ x, w.cells x = none ∨ w'.cells x = none

omit [DecidableEq κ] in
theorem Disjoint.apart {n : Nat} {prog : Nat → List (List (Write κ α))} (h : Disjoint n prog) : Apart n prog := by
  rintro i hi j hj hij c x ⟨⟨w, hw, h1, h2⟩, w', hw', h3, h4⟩
  rcases h i hi j hj hij w hw w' hw' (by rw [h1, h3]) x with h5 | h5
  · exact h2 h5
  · exact h4 h5

/-- C109. Any number of processes make the same number of calls, each writing cells that no other one writes. Whatever the order of their turns: when all have returned, every
cell has what its process wrote last, cells that nobody wrote are as before, and there are no lock files. -/
theorem C109_nothing_lost (n R : Nat) (hn : 0 < n) (prog : Nat → List (List (Write κ α))) (hR : ∀ i < n, (prog i).length = R) (hd : Disjoint n prog)
    (init : κ → Nat → α) (turns : List Nat) (hend : ∀ i < n, ((run n (St.init init prog) turns).procs i).finished = true) :
    (∀ i < n, ∀ c x v, LastWrite (prog i).flatten c x v → (run n (St.init init prog) turns).store c x = v) ∧
    (∀ c x, (∀ i < n, ∀ w ∈ (prog i).flatten, w.chunk = c → w.cells x = none) → (run n (St.init init prog) turns).store c x = init c x) ∧
    (run n (St.init init prog) turns).files = [] := by
  have h0 := init_inv n R prog init hR
  have h := run_inv hd.apart turns _ h0
  refine ⟨?_, ?_, ?_⟩
  · rintro i hi c x v ⟨pre, w, post, he, rfl, hv, hp⟩
    have ht : touches (prog i).flatten w.chunk x := ⟨w, by rw [he]; simp, rfl, by simp [hv]⟩
    have := h.val i hi w.chunk x ht
    rw [finished_left (hend i hi), he, alone_last init pre post w x v hv (fun ⟨w', hw', h1, h2⟩ => h2 (hp w' hw' h1))] at this
    exact this
  · intro c x hno
    exact h.rest c x fun i hi ⟨w, hw, h1, h2⟩ => h2 (hno i hi w hw h1)
  · exact files_run hd.apart turns _ h0 (fun _ => rfl) (hend 0 hn)

/-- C109. No deadlock: as long as a process has not returned, some process can move. No process is kept busy for ever: in any order of turns there are only so many steps, four for
each write and four for each call. So the calls can always be brought to their end. -/
theorem C109_no_deadlock (n R : Nat) (prog : Nat → List (List (Write κ α))) (hR : ∀ i < n, (prog i).length = R) (hd : Disjoint n prog)
    (init : κ → Nat → α) (turns : List Nat) :
    ((∃ i < n, ((run n (St.init init prog) turns).procs i).finished = false) → ∃ i < n, (step n (run n (St.init init prog) turns) i).isSome = true) ∧
    moves n (St.init init prog) turns ≤ tot (fun i => ((prog i).map fun ws => 4 * ws.length + 4).sum) n ∧
    ∃ more, ∀ i < n, ((run n (St.init init prog) (turns ++ more)).procs i).finished = true := by
  have h := run_inv hd.apart turns _ (init_inv n R prog init hR)
  refine ⟨progress h, ?_, ?_⟩
  · refine Nat.le_trans (moves_le turns _) (Nat.le_of_eq (tot_congr _ _ n fun i _ => ?_))
    have hc : ∀ l : List (List (Write κ α)), laterCost l = (l.map fun ws => 4 * ws.length + 4).sum := by
      intro l
      induction l with
      | nil => rfl
      | cons a l ih => simp [laterCost, ih]
    simp [cost, St.init, hc]
  · obtain ⟨more, hm⟩ := can_end hd.apart _ _ h (Nat.le_refl _)
    exact ⟨more, by rw [run_append]; exact hm⟩

/-- Two processes that write different cells of one chunk, in two calls. -/
private def twoProg : Nat → List (List (Write Nat Nat)) := fun i =>
  if i = 0 then [[⟨0, fun x => if x = 0 then some 5 else none⟩], [⟨1, fun x => if x = 0 then some 6 else none⟩]]
  else [[⟨0, fun x => if x = 1 then some 7 else none⟩], [⟨1, fun x => if x = 1 then some 8 else none⟩]]

example : Disjoint 2 twoProg ∧ (∀ i < 2, (twoProg i).length = 2) ∧
    LastWrite (twoProg 1).flatten 0 1 7 := by
  refine ⟨?_, ?_, ?_⟩
  · intro i hi j hj hij w hw w' hw' hc x
    have h1 : (i = 0 ∧ j = 1) ∨ (i = 1 ∧ j = 0) := by omega
    rcases h1 with ⟨rfl, rfl⟩ | ⟨rfl, rfl⟩ <;> simp [twoProg] at hw hw' <;> rcases hw with rfl | rfl <;> rcases hw' with rfl | rfl <;> simp <;> omega
  · intro i _; simp only [twoProg]; split <;> rfl
  · exact ⟨[], _, _, rfl, rfl, rfl, by simp⟩

/-- All turns taken one after the other: both values are in the chunk. -/
example : let s := run 2 (St.init (fun _ _ => 0) twoProg) ((List.replicate 40 [0, 1]).flatten)
    (∀ i < 2, (s.procs i).finished = true) ∧ s.store 0 0 = 5 ∧ s.store 0 1 = 7 ∧ s.store 1 0 = 6 ∧ s.store 1 1 = 8 := by
  refine ⟨?_, ?_, ?_, ?_, ?_⟩
  · decide
  all_goals rfl

/-- C109. `to_zarr` of an array with `N` rows that is distributed over `size` processes, in chunks of `ck` rows: in whatever order the processes get their turns, when all have
returned each row of the array is in its place in the file and the rest of the last chunk is as it was; and the calls can always be brought to their end. -/
theorem C109_array_partial (N size ck : Nat) (hs : 0 < size) (hck : 0 < ck) (v : Nat → α) (init : Nat → Nat → α) (turns : List Nat) :
    ((∀ i < size, ((run size (St.init init (arrayProg N size ck v)) turns).procs i).finished = true) →
      (∀ g < N, (run size (St.init init (arrayProg N size ck v)) turns).store (g / ck) (g % ck) = v g) ∧
      (∀ c x, ck ≤ x ∨ N ≤ c * ck + x → (run size (St.init init (arrayProg N size ck v)) turns).store c x = init c x) ∧
      (run size (St.init init (arrayProg N size ck v)) turns).files = []) ∧
    ∃ more, ∀ i < size, ((run size (St.init init (arrayProg N size ck v)) (turns ++ more)).procs i).finished = true := by
  have hR : ∀ i < size, (arrayProg N size ck v i).length = 1 := fun i hi => by rw [arrayProg_eq N size ck v i hi]; rfl
  have hap := array_apart N size ck v
  have hd : Disjoint size (arrayProg N size ck v) := by
    intro i hi j hj hij w hw w' hw' hc x
    by_cases h1 : w.cells x = none
    · exact .inl h1
    · by_cases h2 : w'.cells x = none
      · exact .inr h2
      · exact absurd ⟨⟨w, hw, rfl, h1⟩, w', hw', hc.symm, h2⟩ (hap i hi j hj hij w.chunk x)
  refine ⟨fun hend => ?_, (C109_no_deadlock size 1 _ hR hd init turns).2.2⟩
  obtain ⟨h1, h2, h3⟩ := C109_nothing_lost size 1 hs _ hR hd init turns hend
  refine ⟨?_, ?_, h3⟩
  · intro g hg
    obtain ⟨r, hr, ha, hb⟩ := Split.blk_owner N size hs g hg
    obtain ⟨pre, w, post, he, hw1, hw2, hw3⟩ := rowWrites_mem ck hck v _ _ g ha hb
    refine h1 r hr _ _ _ ⟨pre, w, post, ?_, hw1, hw2, fun w' hw' hc => ?_⟩
    · rw [arrayProg_eq N size ck v r hr]; simpa using he
    · cases hx : w'.cells (g % ck) with
      | none => rfl
      | some _ => exact absurd ⟨w', hw', hc, by simp [hx]⟩ hw3
  · intro c x hout
    apply h2
    intro i hi w hw hc
    cases hx : w.cells x with
    | none => rfl
    | some _ =>
      exfalso
      have ht : touches (arrayProg N size ck v i).flatten c x := ⟨w, hw, hc, by simp [hx]⟩
      rw [arrayProg_eq N size ck v i hi] at ht
      simp only [List.flatten_cons, List.flatten_nil, List.append_nil] at ht
      obtain ⟨a1, _, a3⟩ := rowWrites_touch _ _ _ _ _ _ ht
      have : Split.blk N size (i + 1) ≤ N := by
        have := Split.blk_mono N size (show i + 1 ≤ size by omega)
        rwa [Split.blk_last N size hs] at this
      rcases hout with h | h <;> omega

/-- Seven rows over three processes in chunks of four: the first chunk has rows of two processes, the second one too. -/
example : let s := run 3 (St.init (fun _ _ => 0) (arrayProg 7 3 4 fun g => g + 1)) ((List.replicate 40 [2, 0, 1]).flatten)
    s.store 0 2 = 3 ∧ s.store 0 3 = 4 ∧ s.store 1 0 = 5 ∧ s.store 1 2 = 7 ∧ s.store 1 3 = 0 := ⟨rfl, rfl, rfl, rfl, rfl⟩

/-- C109, the lock files, for a file that is named without a directory: what is below the current directory is as before. -/
theorem C109_locks_gone_partial (f : String) (dirs : List (List String)) (h : ∀ q ∈ dirs, ¬ ["." ++ f ++ ".sync"] <+: q) :
    leftDirs false dirs [f] = dirs := by
  have h1 : dirs.filter (fun q => !(["." ++ f ++ ".sync"].isPrefixOf q)) = dirs := by
    rw [List.filter_eq_self]
    intro q hq
    cases hc : ["." ++ f ++ ".sync"].isPrefixOf q with
    | false => rfl
    | true => exact absurd (List.isPrefixOf_iff_prefix.1 hc) (h q hq)
  have h2 : List.range (["." ++ f ++ ".sync"]).length = [0] := rfl
  simp only [leftDirs, removeTree, madeDirs, lockPath, Bool.false_eq_true, if_false, List.filter_append, h1]
  simp

example : ∀ q ∈ ([["data"], ["data", "old"]] : List (List String)), ¬ ["." ++ "x.zarr" ++ ".sync"] <+: q := by decide

/-- C109 violated: for a file in another directory, named relative (`out/x.zarr`) or absolute (`/data/x.zarr`), the lock files are in new directories below the current one (`.out`,
`data`) and only the last of these is removed. -/
theorem C109_locks_left_violated (absolute : Bool) (d f : String) (fs : List String) :
    [if absolute then d else "." ++ d] ∈ leftDirs absolute [] (d :: f :: fs) ∧
    leftDirs absolute [] (d :: f :: fs) ≠ [] := by
  have hm : [if absolute then d else "." ++ d] ∈ leftDirs absolute [] (d :: f :: fs) := by
    unfold leftDirs removeTree
    rw [List.mem_filter]
    have hp : ∃ a rest, lockPath absolute (d :: f :: fs) = a :: rest ∧ a = (if absolute then d else "." ++ d) ∧ rest ≠ [] := by
      unfold lockPath
      cases absolute
      · exact ⟨_, _, rfl, rfl, by simp⟩
      · exact ⟨_, _, rfl, rfl, by simp⟩
    obtain ⟨a, rest, he, ha, hr⟩ := hp
    rw [he, ← ha]
    constructor
    · unfold madeDirs
      rw [List.nil_append, List.mem_map]
      exact ⟨0, by simp, by simp⟩
    · cases rest with
      | nil => exact absurd rfl hr
      | cons b bs => simp [List.isPrefixOf]
  exact ⟨hm, fun h => by rw [h] at hm; simp at hm⟩

example : leftDirs false [] ["out", "x.zarr"] = [[".out"]] ∧ leftDirs true [] ["scratch", "me", "x.zarr"] = [["scratch"], ["scratch", "me"]] := by decide

end Verif.Chunks
