import Verif.Dist.UfuncLemmas

/-!
# C61: universal functions on distributed arrays
-/
namespace Verif.Dist

open Verif.Mpi (blockStart blockLen)
open Verif.Reshape (InShape)

variable {α : Type}

/-- C61. If the arguments satisfy the documented restriction (`Aligned`) and the function can be applied
to the global arrays, then every process obtains its block of the global result, distributed over the
axis that the broadcasting puts the distributed axis in. The function, the number of arguments, their
shapes and the process are arbitrary. -/
theorem C61_call_partial {c : Comm} {gs : List (GArg α)} {xs : List (Arg α)} (f : List α → α)
    (h : List.Forall₂ (LocalOf c) gs xs) (N q : Nat) (hal : Aligned N q gs) (hm : HasMpi gs)
    (R : NArr α) (hR : npCall f (gs.map GArg.glob) = .ok R) :
    ∃ B, ufuncCall f xs none = .ok B ∧ IsBlock R (R.shape.length - q) c B := by
  obtain ⟨G, a, A, -, hA, -⟩ := first_mpi h hm
  obtain ⟨B, h1, hq, h2, h3, h4, h5, h6⟩ := npCall_block f h N q hal hm hA.rank R hR
  have hN : R.shape.getD (R.shape.length - q) 0 = N := by rw [List.getD_eq_getElem?_getD, h3]; rfl
  unfold ufuncCall
  rw [commonComm_none h hm]
  simp only [bind, Except.bind]
  rw [inferCall_ok h N q hal hm]
  simp only
  rw [h1, ← h4]
  simp only
  unfold wrapResult
  rw [if_neg (by intro h; rw [h5] at h; simp at h; rw [h] at h2; simp at h2; omega)]
  have := viewFrom_block R (R.shape.length - q) c B (by omega) hA.rank (by rw [hN]; exact h5)
    (by rw [hN]; exact h6)
  rwa [hN] at this

/-- C61, with `out`: if that is a distributed array of the right global shape and axis, it is returned
and holds the block of the global result. -/
theorem C61_out_partial {c : Comm} {gs : List (GArg α)} {xs : List (Arg α)} (f : List α → α)
    (h : List.Forall₂ (LocalOf c) gs xs) (N q : Nat) (hal : Aligned N q gs) (hm : HasMpi gs)
    (R : NArr α) (hR : npCall f (gs.map GArg.glob) = .ok R) (O : MArr α) (GO : NArr α)
    (hO : IsBlock GO (R.shape.length - q) c O) (hs : GO.shape = R.shape) :
    ∃ B, ufuncCall f xs (some (.mpi O)) = .ok B ∧ IsBlock R (R.shape.length - q) c B := by
  obtain ⟨G, a, A, -, hA, -⟩ := first_mpi h hm
  obtain ⟨B, h1, hq, h2, h3, h4, h5, h6⟩ := npCall_block f h N q hal hm hA.rank R hR
  have hN : R.shape.getD (R.shape.length - q) 0 = N := by rw [List.getD_eq_getElem?_getD, h3]; rfl
  have hOs : O.arr.shape = B.shape := by rw [hO.shape, hs, hN, h5]
  unfold npCall at h1
  cases hb : bcast ((xs.map Arg.loc).map (·.shape)) with
  | none => rw [hb] at h1; simp at h1
  | some s =>
    rw [hb] at h1
    have h1 := Except.ok.inj h1
    subst h1
    simp only at hOs h5 h6
    have hchk : checkOut ((R.shape.length - q : Nat) : Int) N (blockStart N c.size c.rank) c (.mpi O) = .ok O := by
      unfold checkOut
      simp only
      rw [checkDist_comm _ _ _ _ hO.comm, (checkDist_iff hO _ N).2 ⟨rfl, by rw [hs, hN]⟩]
    refine ⟨{ O with arr := ⟨s, fun i => f ((xs.map Arg.loc).map fun x => x.val (bidx x.shape i))⟩ }, ?_, ?_⟩
    · unfold ufuncCall
      rw [commonComm_none h hm]
      simp only [bind, Except.bind]
      rw [inferCall_ok h N q hal hm]
      simp only
      rw [← h4, hchk]
      simp only
      unfold npCallOut
      rw [hOs, if_pos (bcast_self _ _ hb)]
      rfl
    · refine ⟨by omega, hA.rank, hO.comm, hO.axis, by rw [hO.gshape, hs], by rw [hN]; exact h5, ?_, ?_, ?_⟩
      · simp only [hO.lshape, hOs]
      · simp only [hO.loff, hs]
      · intro i hi
        rw [hN]
        exact h6 i hi

/-- C61, with another `out`: an array that is not distributed is a `TypeError`, and one that is distributed over another axis or
has another length along it is a `ValueError`, on every process. -/
theorem C61_out_refused {c : Comm} {gs : List (GArg α)} {xs : List (Arg α)} (f : List α → α)
    (h : List.Forall₂ (LocalOf c) gs xs) (N q : Nat) (hal : Aligned N q gs) (hm : HasMpi gs)
    (R : NArr α) (hR : npCall f (gs.map GArg.glob) = .ok R) :
    ufuncCall f xs (some .other) = .error .typeError ∧
    ∀ (O : MArr α) (GO : NArr α) (a : Nat), IsBlock GO a c O → (a ≠ R.shape.length - q ∨ GO.shape.getD a 0 ≠ N) →
      ufuncCall f xs (some (.mpi O)) = .error .valueError := by
  obtain ⟨G, a, A, -, hA, -⟩ := first_mpi h hm
  obtain ⟨B, h1, hq, h2, h3, h4, h5, h6⟩ := npCall_block f h N q hal hm hA.rank R hR
  refine ⟨?_, fun O GO a hO hne => ?_⟩
  · unfold ufuncCall
    rw [commonComm_none h hm]
    simp only [bind, Except.bind]
    rw [inferCall_ok h N q hal hm]
    rfl
  · have hchk : checkOut ((R.shape.length - q : Nat) : Int) N (blockStart N c.size c.rank) c (.mpi O) = .error .valueError := by
      unfold checkOut
      simp only
      rw [checkDist_comm _ _ _ _ hO.comm]
      cases hc : checkDist O ((R.shape.length - q : Nat) : Int) N (blockStart N c.size c.rank) none with
      | error e => rfl
      | ok u =>
        have := (checkDist_iff hO _ N).1 hc
        rcases hne with hne | hne
        · exact absurd (by exact_mod_cast this.1.symm) hne
        · exact absurd this.2 hne
    unfold ufuncCall
    rw [commonComm_none h hm]
    simp only [bind, Except.bind]
    rw [inferCall_ok h N q hal hm]
    simp only
    rw [← h4, hchk]

/-- C61: conversely, a call that succeeds satisfies the documented restriction, and the function can be
applied to the global arrays, provided that no `numpy` argument happens to have the local length along
the distributed axis (this is the case that the code only warns about). -/
theorem C61_accepts_partial {c : Comm} {gs : List (GArg α)} {xs : List (Arg α)} (f : List α → α)
    (h : List.Forall₂ (LocalOf c) gs xs) (hm : HasMpi gs)
    (hw : ∀ G a A, GArg.mpi G a ∈ gs → GArg.arr A ∈ gs → G.shape.length - a ≤ A.shape.length →
      A.shape[A.shape.length - (G.shape.length - a)]? = some (blockLen (G.shape.getD a 0) c.size c.rank) →
      blockLen (G.shape.getD a 0) c.size c.rank = 1)
    (B : MArr α) (hB : ufuncCall f xs none = .ok B) :
    ∃ N q R, Aligned N q gs ∧ npCall f (gs.map GArg.glob) = .ok R := by
  obtain ⟨G, a, A, hG, hA, hf⟩ := first_mpi h hm
  have hlt := hA.lt
  have hAl : A.arr.shape.length = G.shape.length := by rw [hA.shape]; simp
  obtain ⟨e1, e2, e3⟩ := block_get hA
  have hle := le_maxDim ((gs.map GArg.glob).map (·.shape)) G.shape
    (List.mem_map.2 ⟨_, List.mem_map.2 ⟨_, hG, rfl⟩, rfl⟩)
  unfold ufuncCall at hB
  rw [commonComm_none h hm] at hB
  simp only [bind, Except.bind] at hB
  have hal : Aligned (G.shape.getD a 0) (G.shape.length - a) gs := by
    cases hi : inferCall xs with
    | error e => rw [hi] at hB; simp at hB
    | ok v =>
      unfold inferCall at hi
      rw [hf] at hi
      simp only at hi
      rw [maxNdim_eq h hm, hA.axis, e1, e2, e3] at hi
      generalize hn : maxDim ((gs.map GArg.glob).map (·.shape)) = n at *
      have e : (n : Int) + a - A.arr.shape.length = ((n - (G.shape.length - a) : Nat) : Int) := by omega
      simp only [bind, Except.bind, e] at hi
      cases hfm : xs.forM (checkArg ((n - (G.shape.length - a) : Nat) : Int) n (G.shape.getD a 0)
        (blockStart (G.shape.getD a 0) c.size c.rank) (blockLen (G.shape.getD a 0) c.size c.rank)) with
      | error e => rw [hfm] at hi; simp at hi
      | ok u =>
        rw [forM_ok] at hfm
        intro g hg
        obtain ⟨x, hx, hgx⟩ := mem_forall₂ h hg
        refine (checkArg_iff hgx n _ _ (by omega) (by omega) ?_).1 (hfm x hx)
        rintro C rfl h1 h2
        exact hw G a C hG hg h2 h1
  refine ⟨G.shape.getD a 0, G.shape.length - a, ?_⟩
  rw [inferCall_ok h _ _ hal hm] at hB
  simp only at hB
  cases hc : npCall f (xs.map Arg.loc) with
  | error e => rw [hc] at hB; simp at hB
  | ok v =>
    unfold npCall at hc
    cases hb : bcast ((xs.map Arg.loc).map (·.shape)) with
    | none => rw [hb] at hc; simp at hc
    | some s =>
      obtain ⟨t, ht, -⟩ := (bcast_local h _ _ hal hm s).1 hb
      exact ⟨_, hal, by unfold npCall; rw [ht]⟩

/-- A column of five numbers and the part of it on process 1 of 2 (elements 3 and 4). -/
def col5 : NArr Nat := ⟨[5], fun i => i.getD 0 0⟩

/-- The part of `col5` on process `r` of 2. -/
def col5part (r : Nat) : MArr Nat :=
  { arr := ⟨[blockLen 5 2 r], fun i => i.getD 0 0 + blockStart 5 2 r⟩, gshape := [5], axis := 0,
    lshape := [blockLen 5 2 r], loff := [blockStart 5 2 r], comm := ⟨7, 2, r⟩ }

theorem col5_block (r : Nat) (hr : r < 2) : IsBlock col5 0 ⟨7, 2, r⟩ (col5part r) := by
  refine ⟨by decide, hr, rfl, rfl, rfl, rfl, rfl, rfl, ?_⟩
  intro i hi
  have hl := hi.length
  cases i with
  | nil => simp [col5part] at hl
  | cons x i => rfl

/-- The column plus a scalar plus an array of shape (2, 1): the result has shape (2, 5). -/
example : ∃ B, ufuncCall List.sum [.mpi (col5part 1), .num 10, .arr ⟨[2, 1], fun i => 100 * i.getD 0 0⟩] none =
    .ok B ∧ B.axis = 1 ∧ B.gshape = [2, 5] ∧ B.loff = [0, 3] ∧ B.arr.shape = [2, 2] ∧
    B.arr.val [1, 1] = 114 := ⟨_, rfl, rfl, rfl, rfl, rfl, rfl⟩

/-- A column of another length is refused as `out`. -/
example : ∃ O, viewFrom (⟨[2], fun _ => 0⟩ : NArr Nat) 0 4 2 ⟨7, 2, 1⟩ = .ok O ∧
    ufuncCall List.sum [.mpi (col5part 1)] (some (.mpi O)) = .error .valueError := ⟨_, rfl, rfl⟩

/-- The hypotheses hold for these arguments. -/
example : Aligned 5 1 [.mpi col5 0, .num 10, .arr ⟨[2, 1], fun i => 100 * i.getD 0 0⟩] ∧
    HasMpi [.mpi col5 0, .num 10, GArg.arr ⟨[2, 1], fun i => 100 * i.getD 0 0⟩] ∧
    List.Forall₂ (LocalOf ⟨7, 2, 1⟩) [.mpi col5 0, .num 10, .arr ⟨[2, 1], fun i => 100 * i.getD 0 0⟩]
      [.mpi (col5part 1), .num 10, .arr ⟨[2, 1], fun i => 100 * i.getD 0 0⟩] := by
  refine ⟨?_, ⟨col5, 0, by simp⟩, .cons (.mpi _ _ _ (col5_block 1 (by decide))) (.cons (.num _) (.cons (.arr _) .nil))⟩
  intro g hg
  simp only [List.mem_cons, List.not_mem_nil, or_false] at hg
  rcases hg with rfl | rfl | rfl
  · exact ⟨rfl, rfl⟩
  · trivial
  · exact .inr rfl

/-- C61: a distributed array whose distributed axis has another length or position is refused. -/
theorem C61_other_axis {c : Comm} (f : List α → α) (G G' : NArr α) (a a' : Nat) (A A' : MArr α)
    (h : IsBlock G a c A) (h' : IsBlock G' a' c A')
    (hne : G.shape.length - a ≠ G'.shape.length - a' ∨ G.shape.getD a 0 ≠ G'.shape.getD a' 0) :
    ¬ ∃ B, ufuncCall f [.mpi A, .mpi A'] none = .ok B := by
  rintro ⟨B, hB⟩
  obtain ⟨N, q, R, hal, -⟩ := C61_accepts_partial (gs := [.mpi G a, .mpi G' a']) f
    (.cons (.mpi _ _ _ h) (.cons (.mpi _ _ _ h') .nil)) ⟨G, a, by simp⟩ (by simp) B hB
  have h1 : AlignedArg N q (.mpi G a) := hal _ (by simp)
  have h2 : AlignedArg N q (.mpi G' a') := hal _ (by simp)
  obtain ⟨h3, h4⟩ := h1
  obtain ⟨h5, h6⟩ := h2
  have h7 : G.shape.getD a 0 = N := by rw [List.getD_eq_getElem?_getD, h4]; rfl
  have h8 : G'.shape.getD a' 0 = N := by rw [List.getD_eq_getElem?_getD, h6]; rfl
  rcases hne with hne | hne
  · omega
  · exact hne (by rw [h7, h8])

/-- C61 fails for a list: its length is not checked. Five elements plus a list of two is an error for
`numpy`, but process 1, which holds two elements, computes something without even a warning; process 0,
which holds three, raises. -/
theorem C61_list_violated :
    npCall List.sum [col5, ⟨[2], fun _ => 10⟩] = .error .valueError ∧
    (∃ B, ufuncCall List.sum [.mpi (col5part 1), .seq ⟨[2], fun _ => 10⟩] none = .ok B ∧ B.gshape = [5]) ∧
    ufuncCall List.sum [.mpi (col5part 0), .seq ⟨[2], fun _ => 10⟩] none = .error .valueError :=
  ⟨rfl, ⟨_, rfl, rfl⟩, rfl⟩

/-- C61 fails for a nested list with more axes than the array, where `numpy` has a result: the global
result of a column plus `[[10], [20]]` has shape (2, 5) and is distributed over axis 1, but the array
returned has its distributed axis at 0 and global shape (5, 2). -/
theorem C61_nested_list_violated : ∃ R B,
    npCall List.sum [col5, ⟨[2, 1], fun i => 10 * (i.getD 0 0 + 1)⟩] = .ok R ∧ R.shape = [2, 5] ∧
    ufuncCall List.sum [.mpi (col5part 1), .seq ⟨[2, 1], fun i => 10 * (i.getD 0 0 + 1)⟩] none = .ok B ∧
    B.axis = 0 ∧ B.gshape = [5, 2] ∧ B.arr.shape = [2, 2] ∧ ∀ b, ¬ IsBlock R b ⟨7, 2, 1⟩ B := by
  refine ⟨_, _, rfl, rfl, rfl, rfl, rfl, rfl, fun b h => ?_⟩
  have h1 := h.gshape
  revert h1
  decide

/-- C61 fails for a `numpy` array that has the local length of one process: that process computes a
result, with a warning, and the other raises. -/
theorem C61_local_length_violated :
    npCall List.sum [col5, ⟨[3], fun _ => 10⟩] = .error .valueError ∧
    (∃ B, ufuncCall List.sum [.mpi (col5part 0), .arr ⟨[3], fun _ => 10⟩] none = .ok B ∧ B.gshape = [5]) ∧
    ufuncCall List.sum [.mpi (col5part 1), .arr ⟨[3], fun _ => 10⟩] none = .error .axisException :=
  ⟨rfl, ⟨_, rfl, rfl⟩, rfl⟩

/-- C61 fails for an array made with `axis=-1` when another argument has more axes: a (2, 5) array plus
a (1, 1, 1) array should give shape (1, 2, 5) distributed over axis 2; the result has its distributed
axis at 0 and global shape (5, 2, 2). -/
theorem C61_negative_axis_violated : ∃ A B,
    viewFrom (⟨[2, 2], fun i => i.getD 1 0⟩ : NArr Nat) (-1) 5 3 ⟨7, 2, 1⟩ = .ok A ∧ A.gshape = [2, 5] ∧
    ufuncCall List.sum [.mpi A, .arr ⟨[1, 1, 1], fun _ => 0⟩] none = .ok B ∧
    B.axis = 0 ∧ B.gshape = [5, 2, 2] ∧ B.arr.shape = [1, 2, 2] := ⟨_, _, rfl, rfl, rfl, rfl, rfl, rfl⟩

/-- C61 fails for `out` with more axes than the arguments: four elements cannot be broadcast to shape
(4, 2), but on two processes the two local ones are broadcast to the local shape (2, 2), along the
wrong axis. -/
theorem C61_out_violated : ∃ A O B,
    viewFrom (⟨[2], fun i => i.getD 0 0⟩ : NArr Nat) 0 4 0 ⟨7, 2, 0⟩ = .ok A ∧
    viewFrom (⟨[2, 2], fun _ => 0⟩ : NArr Nat) 0 4 0 ⟨7, 2, 0⟩ = .ok O ∧ O.gshape = [4, 2] ∧
    npCallOut List.sum [⟨[4], fun i => i.getD 0 0⟩] [4, 2] = .error .valueError ∧
    ufuncCall List.sum [.mpi A] (some (.mpi O)) = .ok B ∧ B.gshape = [4, 2] ∧
    B.arr.val [0, 1] = 1 ∧ B.arr.val [1, 0] = 0 := ⟨_, _, _, rfl, rfl, rfl, rfl, rfl, rfl, rfl, rfl⟩

/-- `numpy`'s matrix product of two matrices. -/
def npMatmul : List (NArr Nat) → Except PyErr (NArr Nat)
  | [A, B] =>
    match A.shape, B.shape with
    | [n, k], [k', m] =>
      if k = k' then .ok ⟨[n, m], fun i => ((List.range k).map fun (l : Nat) =>
        A.val [i.getD 0 0, l] * B.val [l, i.getD 1 0]).sum⟩
      else .error .valueError
    | _, _ => .error .valueError
  | _ => .error .typeError

/-- mpiarray.py:1768-1925 for `np.matmul`, which is also a universal function and so goes the same way
(the operator `@`). -/
def matmulCall (args : List (Arg Nat)) : Except PyErr (MArr Nat) := do
  match ← commonComm args none with
  | none => .error .runtimeError
  | some c =>
    let (axis, glen, off) ← inferCall args
    let R ← npMatmul (args.map Arg.loc)
    wrapResult R axis glen off c

/-- A matrix with `m` columns distributed over its rows, the same number `l` on each of two processes. -/
def rows (l m : Nat) : MArr Nat :=
  { arr := ⟨[l, m], fun _ => 1⟩, gshape := [2 * l, m], axis := 0, lshape := [l, m], loff := [0, 0],
    comm := ⟨7, 2, 0⟩ }

/-- C61 fails for the matrix product. The product of a (4, 2) and a (4, 3) matrix does not exist, but
if both are distributed over their rows on two processes a result is returned; and the product of a
(6, 2) with a (2, 3) `numpy` matrix, which each process could compute for its rows, raises. -/
theorem C61_matmul_violated :
    npMatmul [⟨[4, 2], fun _ => 1⟩, ⟨[4, 3], fun _ => 1⟩] = .error .valueError ∧
    (∃ B, matmulCall [.mpi (rows 2 2), .mpi (rows 2 3)] = .ok B ∧ B.gshape = [4, 3] ∧ B.arr.val [0, 0] = 2) ∧
    (∃ R, npMatmul [⟨[6, 2], fun _ => 1⟩, ⟨[2, 3], fun _ => 1⟩] = .ok R) ∧
    matmulCall [.mpi (rows 3 2), .arr ⟨[2, 3], fun _ => 1⟩] = .error .axisException :=
  ⟨rfl, ⟨_, rfl, rfl, rfl⟩, ⟨_, rfl⟩, rfl⟩

end Verif.Dist
