import Verif.Dist.TransposeLemmas

/-!
# C60: transposing a distributed array
-/
namespace Verif.Dist

open Verif.Mpi (blockStart blockLen)
open Verif.Reshape (InShape)

variable {α : Type}

/-- The calls that pass the axes `l`: as a tuple or list, or as that many integers. -/
def Passes (l : List Int) (arg : AxesArg) : Prop := arg = .seq l ∨ (l ≠ [] ∧ arg = .ints l)

theorem Passes.own {l : List Int} {arg : AxesArg} (h : Passes l arg) (n : Nat) :
    ownAxes n arg = .ok l ∧ npAxes arg = some l := by
  obtain rfl | ⟨hne, rfl⟩ := h
  · exact ⟨rfl, rfl⟩
  · cases l with
    | nil => exact absurd rfl hne
    | cons x l => exact ⟨rfl, rfl⟩

/-- C60. If the arguments name every axis once, in the order `p`, and the distributed axis is given by
its own number, the call returns this process's block of the transposed global array, and its
distributed axis is the place to which the old one is moved. All of `G`, the number of axes, the order
and the process are arbitrary. Missing: see the violations. -/
theorem C60_transpose_partial (G : NArr α) (a : Nat) (c : Comm) (A : MArr α) (hA : IsBlock G a c A)
    (l : List Int) (p : List Nat) (h : List.Forall₂ (Names G.shape.length) l p) (hp : p.Nodup)
    (hl : p.length = G.shape.length) (ha : (a : Int) ∈ l) (arg : AxesArg) (harg : Passes l arg) :
    ∃ b B, transpose A arg = .ok B ∧ p[b]? = some a ∧ ∀ G', IsTransposed p G G' → IsBlock G' b c B := by
  have hAl : A.arr.shape.length = G.shape.length := by rw [hA.shape]; simp
  have h1 : npTranspose A.arr (npAxes arg) = .ok (permute A.arr p) := by
    rw [(harg.own 0).2]
    unfold npTranspose
    simp only
    rw [hAl, if_neg (by rw [h.length_eq, hl]; simp), (mapM_norm l p).2 h]
    simp only
    rw [if_pos hp]
  have h2 := transpose_core G a c A hA l p h hp hl arg h1 (harg.own _).1
  cases hb : l.idxOf? (a : Int) with
  | none => exact absurd ha (by simpa using hb)
  | some b =>
    obtain ⟨B, h3, h4, h5⟩ := h2.1 b hb
    exact ⟨b, B, h3, h4, h5⟩

/-- C60: without arguments the axes are reversed, so axis `a` becomes axis `n - 1 - a`. -/
theorem C60_reversed (G : NArr α) (a : Nat) (c : Comm) (A : MArr α) (hA : IsBlock G a c A) :
    ∃ B, transpose A (.ints []) = .ok B ∧
      ∀ G', IsTransposed (List.range G.shape.length).reverse G G' →
        IsBlock G' (G.shape.length - 1 - a) c B := by
  have hAl : A.arr.shape.length = G.shape.length := by rw [hA.shape]; simp
  have hlt := hA.lt
  have h : List.Forall₂ (Names G.shape.length)
      ((List.range G.shape.length).reverse.map fun (k : Nat) => (k : Int))
      (List.range G.shape.length).reverse := by
    rw [List.forall₂_map_left_iff]
    apply List.forall₂_same.2
    intro x hx
    exact ⟨by simpa using hx, .inl rfl⟩
  have h2 := transpose_core G a c A hA _ _ h (List.nodup_reverse.2 List.nodup_range) (by simp) (.ints [])
    (by unfold npAxes npTranspose; simp only; rw [hAl]) (by unfold ownAxes; rw [hAl])
  cases hb : ((List.range G.shape.length).reverse.map fun (k : Nat) => (k : Int)).idxOf? (a : Int) with
  | none =>
    rw [List.idxOf?_eq_none_iff] at hb
    exact absurd (List.mem_map.2 ⟨a, by simpa using hlt, rfl⟩) hb
  | some b =>
    obtain ⟨B, h3, h4, h5⟩ := h2.1 b hb
    obtain ⟨hb1, hb2⟩ := List.getElem?_eq_some_iff.1 h4
    simp only [List.getElem_reverse, List.getElem_range, List.length_range] at hb2
    simp only [List.length_reverse, List.length_range] at hb1
    have : b = G.shape.length - 1 - a := by omega
    subst this
    exact ⟨B, h3, h5⟩

/-- C60: reversing twice gives the block of the original array. -/
theorem C60_twice (G : NArr α) (a : Nat) (c : Comm) (A : MArr α) (hA : IsBlock G a c A) :
    ∃ B C, transpose A (.ints []) = .ok B ∧ transpose B (.ints []) = .ok C ∧ IsBlock G a c C := by
  obtain ⟨B, h1, h2⟩ := C60_reversed G a c A hA
  have hn : ∀ n : Nat, (List.range n).reverse.Nodup := fun n => List.nodup_reverse.2 List.nodup_range
  have h3 := h2 _ (permute_isTransposed G _ (hn _) (by simp) (by simp))
  obtain ⟨C, h4, h5⟩ := C60_reversed _ _ c B h3
  have hlt := hA.lt
  have hlen : (permute G (List.range G.shape.length).reverse).shape.length = G.shape.length := by
    simp [permute]
  refine ⟨B, C, h1, h4, ?_⟩
  rw [hlen] at h5
  have : G.shape.length - 1 - (G.shape.length - 1 - a) = a := by omega
  rw [this] at h5
  apply h5
  constructor
  · simp only [permute]
    apply List.ext_getElem
    · simp
    · intro k h6 h7
      simp only [List.getElem_map, List.getElem_reverse, List.getElem_range, List.length_range]
      rw [List.getD_eq_getElem _ _ (by simp; omega)]
      simp only [List.getElem_map, List.getElem_reverse, List.getElem_range, List.length_range]
      rw [List.getD_eq_getElem _ _ (by omega)]
      congr 1
      omega
  · intro i i' hi hl' hj
    simp only [permute]
    have hil := hi.length
    rw [hlen] at hil
    congr 1
    simp only [List.length_reverse, List.length_range] at hl'
    apply List.ext_getElem
    · simp [hl']
    · intro k h6 h7
      simp only [List.length_map, List.length_range] at h7
      simp only [List.getElem_map, List.getElem_range]
      have hk2 : (List.range G.shape.length).reverse[G.shape.length - 1 - k]? = some k := by
        rw [List.getElem?_eq_getElem (by simp; omega)]
        simp only [List.getElem_reverse, List.getElem_range, List.length_range]
        congr 1
        omega
      have hidx : (List.range G.shape.length).reverse.idxOf k = G.shape.length - 1 - k := by
        obtain ⟨h8, h9⟩ := List.getElem?_eq_some_iff.1 hk2
        have h10 := (hn G.shape.length).idxOf_getElem _ h8
        rwa [h9] at h10
      rw [hidx]
      have h11 : (List.range G.shape.length).reverse[k]? = some (G.shape.length - 1 - k) := by
        rw [List.getElem?_eq_getElem (by simp; omega)]
        simp only [List.getElem_reverse, List.getElem_range, List.length_range]
      have h12 := hj _ _ h11
      rw [List.getElem?_eq_getElem (by omega)] at h12
      rw [List.getD_eq_getElem?_getD, ← h12]
      rfl

/-- C60: which calls succeed. The arguments must name every axis exactly once, and one of them must be
the distributed axis by its own number. -/
theorem C60_accepts (G : NArr α) (a : Nat) (c : Comm) (A : MArr α) (hA : IsBlock G a c A)
    (l : List Int) (arg : AxesArg) (harg : Passes l arg) :
    (∃ B, transpose A arg = .ok B) ↔
      (∃ p : List Nat, List.Forall₂ (Names G.shape.length) l p ∧ p.Nodup ∧ p.length = G.shape.length) ∧
        (a : Int) ∈ l := by
  have hAl : A.arr.shape.length = G.shape.length := by rw [hA.shape]; simp
  constructor
  · rintro ⟨B, hB⟩
    have h0 : ∃ t, npTranspose A.arr (npAxes arg) = .ok t := by
      cases h : npTranspose A.arr (npAxes arg) with
      | ok t => exact ⟨t, rfl⟩
      | error e =>
        unfold transpose at hB
        rw [h] at hB
        simp [bind, Except.bind] at hB
    obtain ⟨t, ht⟩ := h0
    have ht' := ht
    rw [(harg.own 0).2] at ht
    unfold npTranspose at ht
    simp only at ht
    split at ht
    · simp at ht
    · rename_i hlen
      split at ht
      · simp at ht
      · rename_i p hp
        split at ht
        · rename_i hnd
          rw [hAl] at hp hlen
          have hp := (mapM_norm l p).1 hp
          have hpl : p.length = G.shape.length := by rw [← hp.length_eq]; simpa using hlen
          refine ⟨⟨p, hp, hnd, hpl⟩, ?_⟩
          have h2 := transpose_core G a c A hA l p hp hnd hpl arg (by rw [ht', Except.ok.inj ht])
            (harg.own _).1
          cases hb : l.idxOf? (a : Int) with
          | none => rw [h2.2 hb] at hB; simp at hB
          | some b =>
            rw [List.idxOf?_eq_some_iff] at hb
            obtain ⟨h5, h6, -⟩ := hb
            exact List.mem_of_getElem (by simpa using h6)
        · simp at ht
  · rintro ⟨⟨p, h1, h2, h3⟩, h4⟩
    obtain ⟨_, B, h5, -⟩ := C60_transpose_partial G a c A hA l p h1 h2 h3 h4 arg harg
    exact ⟨B, h5⟩

/-- An array of global shape (4, 3) whose elements are their own indices, on process 1 of 2,
distributed over the first axis. -/
def ex43 : NArr (List Nat) := ⟨[4, 3], id⟩

/-- The part of `ex43` on process 1 of 2. -/
def ex43part : MArr (List Nat) :=
  { arr := ⟨[2, 3], fun i => i.modify 0 (· + 2)⟩, gshape := [4, 3], axis := 0, lshape := [2, 3],
    loff := [2, 0], comm := ⟨7, 2, 1⟩ }

theorem ex43_block : IsBlock ex43 0 ⟨7, 2, 1⟩ ex43part :=
  ⟨by decide, by decide, rfl, rfl, rfl, rfl, rfl, rfl, fun _ _ => rfl⟩

/-- The axes of `ex43part` swapped: the distributed axis is now the second. -/
example : ∃ B, transpose ex43part (.ints [-1, 0]) = .ok B ∧ B.axis = 1 ∧ B.gshape = [3, 4] ∧
    B.arr.shape = [3, 2] ∧ B.loff = [0, 2] ∧ B.arr.val [2, 1] = [3, 2] := ⟨_, rfl, rfl, rfl, rfl, rfl, rfl⟩

example : List.Forall₂ (Names 2) [-1, 0] [1, 0] :=
  .cons ⟨by decide, .inr rfl⟩ (.cons ⟨by decide, .inl rfl⟩ .nil)

/-- C60 fails when the distributed axis is counted from the end: `numpy` accepts `transpose(1, -2)` for
any array with two axes, but for one distributed over axis 0 the call raises `ValueError`. -/
theorem C60_negative_violated (G : NArr α) (c : Comm) (A : MArr α) (hA : IsBlock G 0 c A)
    (hn : G.shape.length = 2) :
    (∃ t, npTranspose A.arr (some [1, -2]) = .ok t) ∧ ¬ ∃ B, transpose A (.ints [1, -2]) = .ok B := by
  have hAl : A.arr.shape.length = 2 := by rw [hA.shape]; simpa using hn
  constructor
  · unfold npTranspose
    simp only [hAl]
    exact ⟨_, rfl⟩
  · rw [C60_accepts G 0 c A hA [1, -2] (.ints [1, -2]) (.inr ⟨by simp, rfl⟩)]
    simp

/-- C60 fails for `transpose(None)`, which the documentation offers as a way to reverse the axes: it
raises `TypeError` for every distributed array. -/
theorem C60_none_violated (G : NArr α) (a : Nat) (c : Comm) (A : MArr α) (hA : IsBlock G a c A) :
    transpose A .none = .error .typeError := by
  have hAl : A.arr.shape.length = G.shape.length := by rw [hA.shape]; simp
  have hlt := hA.lt
  unfold transpose finalize npAxes npTranspose
  simp only [bind, Except.bind]
  rw [hA.axis, pyGet_nat _ a (by rw [hA.gshape]; exact hlt)]
  simp only
  rw [pySet_nat _ _ _ (by omega), pySet_nat _ _ _ (by simp; omega)]
  rfl

/-- C60 fails for the attribute `T`: the axis is still recorded as 0, with the lengths of the array that
was transposed, so the records do not describe the transposed array. -/
theorem C60_T_violated : ∃ B, attrT ex43part = .ok B ∧ B.arr.shape = [3, 2] ∧ B.axis = 0 ∧
    B.gshape = [4, 3] ∧ B.lshape = [2, 3] ∧
    ∀ (G' : NArr (List Nat)) (b : Nat), IsTransposed [1, 0] ex43 G' → ¬ IsBlock G' b ⟨7, 2, 1⟩ B := by
  refine ⟨_, rfl, rfl, rfl, rfl, rfl, fun G' b hG h => ?_⟩
  have h1 := h.gshape
  rw [hG.shape] at h1
  revert h1
  decide

/-- C60 fails for an array that was made with `axis=-1`: reversing the axes raises `ValueError`. -/
theorem C60_own_axis_violated (A : MArr α) (ha : A.axis < 0) : ¬ ∃ B, transpose A (.ints []) = .ok B := by
  rintro ⟨B, hB⟩
  unfold transpose at hB
  simp only [bind, Except.bind, npAxes, npTranspose, ownAxes] at hB
  have hno : ((List.range A.arr.shape.length).reverse.map fun (k : Nat) => (k : Int)).idxOf? A.axis = none := by
    rw [List.idxOf?_eq_none_iff]
    intro h
    obtain ⟨k, -, hk⟩ := List.mem_map.1 h
    omega
  rw [hno] at hB
  repeat' split at hB
  all_goals first | (simp at hB) | simp_all

example : ∃ A : MArr (List Nat), viewFrom ⟨[3, 2], id⟩ (-1) 4 2 ⟨7, 2, 1⟩ = .ok A ∧ A.axis < 0 ∧
    A.gshape = [3, 4] := ⟨_, rfl, by decide, rfl⟩

end Verif.Dist
