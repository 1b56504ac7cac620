import Verif.Tod.DistributedLemmas

/-!
# C99: concatenation of datasets with several axes, distributed or not
-/
namespace Verif.TodDist

open Verif.Dist

variable {α : Type}

/-- **C99** Datasets with any number of axes that every process has whole: the output is the part from `S` to `E` of the
datasets put one after the other along the axis `t`, and all of it was written. -/
theorem C99_common (dist : Bool) (c : Comm) (t : Nat) (s : List Nat) (ht : t < s.length) (S E : Nat) (hSE : S < E) (Gs : List (NArr α))
    (hE : E ≤ total t Gs) (hs : ∀ G ∈ Gs, G.shape = s.set t (G.shape.getD t 0)) :
    ∃ W, concatD dist c t S E 0 (Gs.map fun G => (G.shape.getD t 0, .common G)) none = .ok (some (.common W)) ∧ IsWindow t s S E Gs W := by
  obtain ⟨o, W, h1, h2, h3⟩ := concatD_window dist .common c trivial t s ht trivial S E hSE Gs hE (Gs.map fun G => (G.shape.getD t 0, .common G)) hs
    (by
      clear hE hs
      induction Gs with
      | nil => exact .nil
      | cons G Gs ih => exact .cons ⟨rfl, rfl⟩ ih)
  cases h2
  exact ⟨W, h1, h3⟩

/-- Three rows and two rows of two columns; rows 1 to 3 are wanted. -/
example : ∃ W, concatD false ⟨0, 1, 0⟩ 0 1 4 0 [(3, .common ⟨[3, 2], fun i => i⟩), (2, .common ⟨[2, 2], fun i => 9 :: i⟩)] none = .ok (some (.common W)) ∧
    W.shape = [3, 2] ∧ W.val [2, 1] = some [9, 0, 1] := by
  obtain ⟨W, h1, h2⟩ := C99_common false ⟨0, 1, 0⟩ 0 [0, 2] (by decide) 1 4 (by decide) [⟨[3, 2], fun i => i⟩, ⟨[2, 2], fun i => 9 :: i⟩] (by decide) (by simp)
  refine ⟨W, h1, h2.shape, ?_⟩
  rw [(h2.elems [2, 1] (by rw [h2.shape]; exact .cons (by decide) (.cons (by decide) .nil))).1]
  rfl

/-- **C99** Datasets distributed over an axis `d` other than that of the concatenation `t`: on every process the output is its
block of the part from `S` to `E` of the global datasets put one after the other.
Missing: datasets distributed over the axis of the concatenation, and output to a file (see the negations). -/
theorem C99_distributed_partial (c : Comm) (t d : Nat) (hdt : d ≠ t) (s : List Nat) (ht : t < s.length) (S E : Nat) (hSE : S < E)
    (Gs : List (NArr α)) (hE : E ≤ total t Gs) (hs : ∀ G ∈ Gs, G.shape = s.set t (G.shape.getD t 0)) (As : List (MArr α))
    (hA : List.Forall₂ (fun G A => IsBlock G d c A) Gs As) :
    ∃ W O, concatD true c t S E 0 (List.zipWith (fun (G : NArr α) A => (G.shape.getD t 0, .dist A)) Gs As) none = .ok (some (.dist O)) ∧
      IsBlock W d c O ∧ IsWindow t s S E Gs W := by
  obtain ⟨o, W, h1, ⟨O, rfl, h2⟩, h3⟩ := concatD_window true (.dist d) c rfl t s ht hdt S E hSE Gs hE
    (List.zipWith (fun (G : NArr α) A => (G.shape.getD t 0, .dist A)) Gs As) hs
    (by
      clear hE hs
      induction hA with
      | nil => exact .nil
      | cons h _ ih => exact .cons ⟨rfl, _, rfl, h⟩ ih)
  exact ⟨W, O, h1, h2, h3⟩

/-- The part of process 1 of 2 of a global array with 4 columns and `n` rows, distributed over the columns. -/
def exPart (n : Nat) (f : List Nat → List Nat) : MArr (List Nat) :=
  ⟨⟨[n, 2], fun i => f (i.modify 1 (· + 2))⟩, [n, 4], 1, [n, 2], [0, 2], ⟨0, 2, 1⟩⟩

theorem exPart_block (n : Nat) (f : List Nat → List Nat) : IsBlock ⟨[n, 4], f⟩ 1 ⟨0, 2, 1⟩ (exPart n f) := by
  have h1 : Mpi.blockLen 4 2 1 = 2 := by decide
  have h2 : Mpi.blockStart 4 2 1 = 2 := by decide
  refine ⟨by simp, by decide, rfl, rfl, rfl, ?_, rfl, ?_, fun i _ => ?_⟩
  · simp [exPart, h1]
  · simp [exPart, h2]
  · simp [exPart, h2]

/-- The same on two processes, four columns; process 1 has the last two. -/
example : ∃ W O, concatD true ⟨0, 2, 1⟩ 0 1 4 0 [(3, .dist (exPart 3 fun i => i)), (2, .dist (exPart 2 fun i => 9 :: i))] none = .ok (some (.dist O)) ∧
    IsBlock W 1 ⟨0, 2, 1⟩ O ∧ W.shape = [3, 4] ∧ W.val [2, 3] = some [9, 0, 3] := by
  obtain ⟨W, O, h1, h2, h3⟩ := C99_distributed_partial ⟨0, 2, 1⟩ 0 1 (by decide) [0, 4] (by decide) 1 4 (by decide)
    [⟨[3, 4], fun i => i⟩, ⟨[2, 4], fun i => 9 :: i⟩] (by decide) (by simp) [exPart 3 fun i => i, exPart 2 fun i => 9 :: i]
    (.cons (exPart_block _ _) (.cons (exPart_block _ _) .nil))
  refine ⟨W, O, h1, h2, h3.shape, ?_⟩
  rw [(h3.elems [2, 3] (by rw [h3.shape]; exact .cons (by decide) (.cons (by decide) .nil))).1]
  rfl

/-- **C99** (negation) With output to a file, what a process puts there has only its own part of the datasets: the output has the shape of
this part along the distributed axis. -/
theorem C99_file_violated (c : Comm) (t d : Nat) (hdt : d ≠ t) (s : List Nat) (ht : t < s.length) (S E : Nat) (hSE : S < E)
    (Gs : List (NArr α)) (hE : E ≤ total t Gs) (hs : ∀ G ∈ Gs, G.shape = s.set t (G.shape.getD t 0)) (As : List (MArr α))
    (hA : List.Forall₂ (fun G A => IsBlock G d c A) Gs As) :
    ∃ W, concatD false c t S E 0 (List.zipWith (fun (G : NArr α) A => (G.shape.getD t 0, .dist A)) Gs As) none = .ok (some (.common W)) ∧
      IsWindow t (s.set d (Mpi.blockLen (s.getD d 0) c.size c.rank)) S E (As.map (·.arr)) W := by
  have hst : ∀ (G : NArr α) (A : MArr α), IsBlock G d c A → A.arr.shape.getD t 0 = G.shape.getD t 0 := fun G A h => by rw [h.shape, getD_set_ne _ _ hdt]
  have htot : total t (As.map (·.arr)) = total t Gs := by
    clear hE hs
    unfold total
    induction hA with
    | nil => rfl
    | cons h _ ih =>
      simp only [List.map_cons, List.sum_cons, ih, hst _ _ h]
  obtain ⟨o, W, h1, rfl, h3⟩ := concatD_window false (.file d) c rfl t (s.set d (Mpi.blockLen (s.getD d 0) c.size c.rank)) (by simpa using ht) hdt S E hSE
    (As.map (·.arr)) (by omega) (List.zipWith (fun (G : NArr α) A => (G.shape.getD t 0, .dist A)) Gs As)
    (by
      clear hE htot
      induction hA with
      | nil => simp
      | @cons G A Gs As h _ ih =>
        have ih' := ih fun G k => hs G (List.mem_cons_of_mem _ k)
        intro X hX
        simp only [List.map_cons, List.mem_cons] at hX
        rcases hX with rfl | hX
        · rw [hst _ _ h, h.shape, hs G List.mem_cons_self, getD_set_ne _ _ (Ne.symm hdt), getD_set_self _ _ _ ht, List.set_comm _ _ hdt]
        · exact ih' X hX)
    (by
      clear hE hs htot
      induction hA with
      | nil => exact .nil
      | @cons G A Gs As h _ ih =>
        refine .cons ⟨(hst _ _ h).symm, A, G, rfl, h, rfl⟩ ih)
  exact ⟨W, h1, h3⟩

/-- Process 1 puts two of the four columns into the file. -/
example : ∃ W, concatD false ⟨0, 2, 1⟩ 0 0 3 0 [(3, .dist (exPart 3 fun i => i))] none = .ok (some (.common W)) ∧ W.shape = [3, 2] ∧ W.val [0, 0] = some [0, 2] := by
  obtain ⟨W, h1, h2⟩ := C99_file_violated ⟨0, 2, 1⟩ 0 1 (by decide) [0, 4] (by decide) 0 3 (by decide)
    [⟨[3, 4], fun i => i⟩] (by decide) (by simp) [exPart 3 fun i => i] (.cons (exPart_block _ _) .nil)
  refine ⟨W, h1, h2.shape, ?_⟩
  rw [(h2.elems [0, 0] (by rw [h2.shape]; exact .cons (by decide) (.cons (by decide) .nil))).1]
  rfl

/-- **C99** (negation) If the datasets are distributed over the axis of the concatenation, the output is never distributed. -/
theorem C99_time_axis_violated (dist : Bool) (c : Comm) (t : Nat) (S E : Int) (xs : List (Nat × InD α))
    (hx : ∀ x ∈ xs, ∃ G A, x.2 = .dist A ∧ IsBlock G t c A) (o : OutD α) (h : concatD dist c t S E 0 xs none = .ok (some o)) :
    ∃ P, o = .common P :=
  concatD_time dist c t S E 0 xs hx none (by simp) (some o) h o rfl

/-- The part of process `r` of 2 of a global array with `2 * k` rows, distributed over the rows. -/
def exRows (k r : Nat) : MArr Nat := ⟨⟨[k], fun i => i.getD 0 0 + r * k⟩, [2 * k], 0, [k], [r * k], ⟨0, 2, r⟩⟩

/-- **C99** (negation) Datasets distributed over the axis of the concatenation: with two rows, each process has its own row twice; with
four rows the rows of a process do not fit; a process that has nothing of what is wanted fails. -/
theorem C99_rows_violated :
    (∃ W, concatD true ⟨0, 2, 0⟩ 0 0 2 0 [(2, .dist (exRows 1 0))] none = .ok (some (.common W)) ∧ W.shape = [2] ∧ W.val [0] = some 0 ∧ W.val [1] = some 0) ∧
    (∃ W, concatD true ⟨0, 2, 1⟩ 0 0 2 0 [(2, .dist (exRows 1 1))] none = .ok (some (.common W)) ∧ W.shape = [2] ∧ W.val [0] = some 1 ∧ W.val [1] = some 1) ∧
    concatD true ⟨0, 2, 0⟩ 0 0 4 0 [(4, .dist (exRows 2 0))] none = .error .valueError ∧
    concatD true ⟨0, 2, 1⟩ 0 0 1 0 [(4, .dist (exRows 2 1))] none = .error .typeError :=
  ⟨⟨_, rfl, rfl, rfl, rfl⟩, ⟨_, rfl, rfl, rfl, rfl⟩, rfl, rfl⟩

/-- They are the parts of global arrays. -/
example (k r : Nat) (hr : r < 2) : IsBlock ⟨[2 * k], fun i => i.getD 0 0⟩ 0 ⟨0, 2, r⟩ (exRows k r) := by
  have h1 : Mpi.blockLen (2 * k) 2 r = k := by simp [Mpi.blockLen]
  have h2 : Mpi.blockStart (2 * k) 2 r = r * k := by simp [Mpi.blockStart, Nat.mul_comm]
  refine ⟨by simp, hr, rfl, rfl, rfl, ?_, rfl, ?_, fun i hi => ?_⟩
  · simp [exRows, h1]
  · simp [exRows, h2]
  · have : i.length = 1 := hi.length
    simp only [exRows, List.getD_cons_zero, h2]
    obtain ⟨x, rfl⟩ := List.length_eq_one_iff.1 this
    rfl

end Verif.TodDist
