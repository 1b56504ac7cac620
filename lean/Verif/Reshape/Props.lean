import Verif.Reshape.Lemmas
import Verif.Mpi.Lemmas

/-!
# C11: reshaping a distributed array
-/
namespace Verif.Reshape

open Verif.Mpi (blockStart blockLen)

variable {α : Type}

/-- C11, for a process with a non-empty block, in both index orders. If the request asks for a global
shape `gs'` (see `Target`, which does not mention the process), the call returns this process's block
of the reshaped global array, with the right axis, global length and offset. -/
theorem C11_reshape_partial (gs : List Nat) (G : List Nat → α) (a P r : Nat) (A : DArr α) (o : Order)
    (hr : r < P) (hA : IsBlock gs G a P r A) (hne : 0 < blockLen A.glen P r) (target : List (Option Int))
    (gs' : List Nat) (b : Nat) (ht : Target gs a target gs' b) :
    ∃ B, reshape A o target = .ok B ∧ IsBlock gs' (reshaped o gs gs' G) b P r B ∧
      prod gs' = prod gs ∧ B.glen = A.glen := by
  obtain ⟨tpre, tpost, pre', post', n, rfl, hn, hpre, hpost, rfl, rfl⟩ := ht
  have hng : n = A.glen := by have := hA.glen; rw [hn] at this; exact Option.some.inj this
  subst hng
  have halt : a < gs.length := (List.getElem?_eq_some_iff.1 hn).1
  have hgs : gs = gs.take a ++ A.glen :: gs.drop (a + 1) := by
    have h := List.take_append_drop a gs
    rw [List.drop_eq_getElem_cons halt, (List.getElem?_eq_some_iff.1 hn).2] at h
    exact h.symm
  have hlen : (gs.take a).length = a := by rw [List.length_take]; omega
  generalize hp : gs.take a = pre at *
  generalize hq : gs.drop (a + 1) = post at *
  have hshape : A.shape = pre ++ blockLen A.glen P r :: post := by
    rw [hA.shape, hgs, List.set_append_right _ _ (by omega), hlen]; simp
  have hres := (reshape_iff A o pre post (blockLen A.glen P r) hne hshape (by rw [hA.axis, hlen])
    (tpre ++ none :: tpost) _).2 ⟨tpre, tpost, pre', post', rfl, hpre, hpost, rfl⟩
  have hl : tpre.length = pre'.length := hpre.ne_none.2
  refine ⟨_, hres, ⟨rfl, ?_, hA.off, ?_, ?_⟩, ?_, rfl⟩
  · simp only; rw [hl]; simp
  · simp only
    rw [hl, List.set_append_right _ _ (by omega)]; simp
  · intro I hI
    simp only at hI ⊢
    obtain ⟨i, I2, hi, hI2, rfl⟩ := hI.split
    obtain ⟨x, j, hx, hj, rfl⟩ := List.forall₂_cons_right_iff.1 hI2
    rw [hshape, unravelO_middle o pre post pre' post' _ hpre.1 hpost.1 i j x hi hx hj, hA.elems]
    · have hli : (unravelO o pre (ravelO o pre' i)).length = a := by
        rw [(unravelO_in o pre _ (by rw [← hpre.1]; exact ravelO_lt o hi)).length, hlen]
      have hbound : x + A.off < A.glen := by
        rw [hA.off]
        have : x < blockLen A.glen P r := hx
        have := Mpi.block_le A.glen P hr
        omega
      unfold reshaped
      rw [hgs, hl, ← hi.length, modify_middle, ← hli, modify_middle, ← hgs]
      rw [hgs, unravelO_middle o pre post pre' post' _ hpre.1 hpost.1 i j _ hi hbound hj]
    · rw [hshape]
      exact (unravelO_in o pre _ (by rw [← hpre.1]; exact ravelO_lt o hi)).append
        (.cons hx (unravelO_in o post _ (by rw [← hpost.1]; exact ravelO_lt o hj)))
  · rw [hgs, prod_append, prod_cons, prod_append, prod_cons, hpre.1, hpost.1]

/-- C11: a process with a non-empty block accepts nothing else, so it raises exactly if the request does
not ask for a global shape. -/
theorem C11_accepts_partial (gs : List Nat) (G : List Nat → α) (a P r : Nat) (A : DArr α) (o : Order)
    (hr : r < P) (hA : IsBlock gs G a P r A) (hne : 0 < blockLen A.glen P r)
    (target : List (Option Int)) :
    (∃ B, reshape A o target = .ok B) ↔ ∃ gs' b, Target gs a target gs' b := by
  constructor
  · rintro ⟨B, hB⟩
    have hn := hA.glen
    have halt : a < gs.length := (List.getElem?_eq_some_iff.1 hn).1
    have hgs : gs = gs.take a ++ A.glen :: gs.drop (a + 1) := by
      have h := List.take_append_drop a gs
      rw [List.drop_eq_getElem_cons halt, (List.getElem?_eq_some_iff.1 hn).2] at h
      exact h.symm
    have hlen : (gs.take a).length = a := by rw [List.length_take]; omega
    have hshape : A.shape = gs.take a ++ blockLen A.glen P r :: gs.drop (a + 1) := by
      rw [hA.shape]
      conv => lhs; rw [hgs]
      rw [List.set_append_right _ _ (by omega), hlen]; simp
    obtain ⟨tpre, tpost, pre', post', h1, h2, h3, _⟩ :=
      (reshape_iff A o _ _ (blockLen A.glen P r) hne hshape (by rw [hA.axis, hlen]) target B).1 hB
    exact ⟨_, _, tpre, tpost, pre', post', A.glen, h1, hn, h2, h3, rfl, rfl⟩
  · rintro ⟨gs', b, h⟩
    obtain ⟨B, hB, _⟩ := C11_reshape_partial gs G a P r A o hr hA hne target gs' b h
    exact ⟨B, hB⟩

/-- C11: all processes with non-empty blocks decide alike. -/
theorem C11_decision_partial (gs : List Nat) (G : List Nat → α) (a P r q : Nat) (A B : DArr α)
    (o o' : Order) (hr : r < P) (hq : q < P) (hA : IsBlock gs G a P r A) (hB : IsBlock gs G a P q B)
    (hrne : 0 < blockLen A.glen P r) (hqne : 0 < blockLen B.glen P q) (target : List (Option Int)) :
    (∃ C, reshape A o target = .ok C) ↔ ∃ C, reshape B o' target = .ok C := by
  rw [C11_accepts_partial gs G a P r A o hr hA hrne, C11_accepts_partial gs G a P q B o' hq hB hqne]

/-- C11: if the distributed axis has length zero, all processes decide alike as well. -/
theorem C11_decision_zero_partial (gs : List Nat) (G : List Nat → α) (a P r q : Nat) (A B : DArr α)
    (o o' : Order) (hA : IsBlock gs G a P r A) (hB : IsBlock gs G a P q B) (h0 : A.glen = 0)
    (target : List (Option Int)) :
    (∃ C, reshape A o target = .ok C) ↔ ∃ C, reshape B o' target = .ok C := by
  have hg : B.glen = 0 := by
    have := hB.glen; rw [hA.glen, h0] at this; exact (Option.some.inj this).symm
  have hs : A.shape = B.shape := by
    rw [hA.shape, hB.shape, h0, hg]; simp [blockLen]
  have ha : A.axis = B.axis := by rw [hA.axis, hB.axis]
  unfold reshape
  rw [hs, ha]
  cases plan B.shape B.axis target with
  | error e => simp [bind, Except.bind]
  | ok dk =>
    simp only [bind, Except.bind, pure, Except.pure]
    cases npShape (prod B.shape) dk.1 with
    | error e => simp
    | ok new => simp

/-! ### Examples and violations -/

/-- The array whose element at a multi-index is its row-major position, of shape 3 × 4, on process `r`
of `P`, distributed over the first axis. -/
def exArr (P r : Nat) : DArr Nat where
  shape := [blockLen 3 P r, 4]
  val := fun i => ravel [3, 4] (i.modify 0 (· + blockStart 3 P r))
  axis := 0
  glen := 3
  off := blockStart 3 P r

theorem exArr_block (P r : Nat) : IsBlock [3, 4] (ravel [3, 4]) 0 P r (exArr P r) :=
  ⟨rfl, rfl, rfl, rfl, fun _ _ => rfl⟩

/-- `(None, 2, -1)` asks for the shape 3 × 2 × 2. -/
theorem exTarget : Target [3, 4] 0 [none, some 2, some (-1)] [3, 2, 2] 0 :=
  ⟨[], [some 2, some (-1)], [], [2, 2], 3, rfl, rfl, ⟨rfl, .inl rfl⟩,
    ⟨rfl, .inr ⟨[2], [], 2, rfl, by decide, rfl⟩⟩, rfl, rfl⟩

example : ∃ B, reshape (exArr 2 1) .c [none, some 2, some (-1)] = .ok B ∧
    IsBlock [3, 2, 2] (reshaped .c [3, 4] [3, 2, 2] (ravel [3, 4])) 0 2 1 B ∧
    prod [3, 2, 2] = prod [3, 4] ∧ B.glen = (exArr 2 1).glen :=
  C11_reshape_partial [3, 4] _ 0 2 1 _ .c (by omega) (exArr_block 2 1) (by decide) _ _ _ exTarget

/-- What the decision of one process is. -/
def decision (e : Except PyErr (DArr α)) : Except PyErr (List Nat) := e.map (·.shape)

/-- C11 fails if there are more processes than rows. For the shape 3 × 4 on four processes the request
`(None, 7)` is rejected by the first three, but the last, whose block is empty, accepts it. -/
theorem C11_empty_accepts_violated :
    (∀ r, r < 3 → decision (reshape (exArr 4 r) .c [none, some 7]) = .error .valueError) ∧
    decision (reshape (exArr 4 3) .c [none, some 7]) = .ok [0, 7] := by
  constructor
  · intro r hr
    have : r = 0 ∨ r = 1 ∨ r = 2 := by omega
    rcases this with rfl | rfl | rfl <;> rfl
  · rfl

/-- C11 fails if there are more processes than rows: `(None, -1)` is accepted by the first three
processes, and the last divides by zero. -/
theorem C11_empty_wildcard_violated :
    (∀ r, r < 3 → decision (reshape (exArr 4 r) .c [none, some (-1)]) = .ok [1, 4]) ∧
    decision (reshape (exArr 4 3) .c [none, some (-1)]) = .error .zeroDivisionError := by
  constructor
  · intro r hr
    have : r = 0 ∨ r = 1 ∨ r = 2 := by omega
    rcases this with rfl | rfl | rfl <;> rfl
  · rfl

/-- C11 fails for an array created with a negative axis: the request for the shape it has already is
rejected on every process that holds more than one row (here on one process). -/
theorem C11_negative_axis_violated (val : List Nat → α) (n : Nat) (hn : 1 < n) :
    reshape ⟨[n], val, -1, n, 0⟩ .c [none] = .error .valueError := by
  have h1 : (List.findIdx? (fun x => x.isNone) [(none : Option Int)]) = some 0 := rfl
  have h2 : pyGet [n] (-1) = .ok n := rfl
  have h3 : checkShapes [n] [some (n : Int)] = .ok [(n : Int)] :=
    (check_iff _ _ _).2 ⟨by simp [iprod, prod], .inl ⟨rfl, by simp⟩⟩
  have h4 : checkShapes [] [some (n : Int)] = .error .valueError := by
    have : scan [some (n : Int)] 0 none 1 = .ok ([(n : Int)], none, 1 * iprod [(n : Int)]) :=
      (scan_none _ _ _ _ _ _).2 ⟨rfl, .inl ⟨by simp, rfl, rfl⟩⟩
    simp only [checkShapes, this, finish]
    rw [if_neg]
    simp [prod, iprod]; omega
  simp only [reshape, plan, h1, h2, fromIdx, uptoIdx, bind, Except.bind]
  simp [h3, h4]

/-- C11 fails for `order="A"` on a column-major array: on two processes that hold 2 × 4 and 1 × 4
elements, the first works in column-major order and the second in row-major order, so the results are
the blocks of neither reshaped array. -/
theorem C11_order_a_violated (o : Order) : ∃ r, r < 2 ∧ ∀ B,
    reshape (exArr 2 r) (orderA true (exArr 2 r).shape) [none, some 2, some 2] = .ok B →
    ¬ IsBlock [3, 2, 2] (reshaped o [3, 4] [3, 2, 2] (ravel [3, 4])) 0 2 r B := by
  cases o with
  | c =>
    refine ⟨0, by omega, fun B hB hblock => ?_⟩
    have hs : B.shape = [2, 2, 2] := hblock.shape.trans (by
      have : B.glen = 3 := (Option.some.inj hblock.glen).symm
      rw [this]; rfl)
    have ho : B.off = 0 := hblock.off.trans (by
      have : B.glen = 3 := (Option.some.inj hblock.glen).symm
      rw [this]; rfl)
    have h := hblock.elems [0, 0, 1] (by rw [hs]; exact .cons (by omega) (.cons (by omega) (.cons (by omega) .nil)))
    rw [ho] at h
    have hv : B.val [0, 0, 1] = 2 := by
      have h2 : (reshape (exArr 2 0) (orderA true (exArr 2 0).shape) [none, some 2, some 2]).map
        (fun B => B.val [0, 0, 1]) = .ok 2 := rfl
      rw [hB] at h2
      exact Except.ok.inj h2
    rw [hv] at h
    exact absurd h (by decide)
  | f =>
    refine ⟨1, by omega, fun B hB hblock => ?_⟩
    have hs : B.shape = [1, 2, 2] := hblock.shape.trans (by
      have : B.glen = 3 := (Option.some.inj hblock.glen).symm
      rw [this]; rfl)
    have ho : B.off = 2 := hblock.off.trans (by
      have : B.glen = 3 := (Option.some.inj hblock.glen).symm
      rw [this]; rfl)
    have h := hblock.elems [0, 0, 1] (by rw [hs]; exact .cons (by omega) (.cons (by omega) (.cons (by omega) .nil)))
    rw [ho] at h
    have hv : B.val [0, 0, 1] = 9 := by
      have h2 : (reshape (exArr 2 1) (orderA true (exArr 2 1).shape) [none, some 2, some 2]).map
        (fun B => B.val [0, 0, 1]) = .ok 9 := rfl
      rw [hB] at h2
      exact Except.ok.inj h2
    rw [hv] at h
    exact absurd h (by decide)

end Verif.Reshape
