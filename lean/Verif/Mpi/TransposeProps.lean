import Verif.Mpi.Transpose
import Verif.Mpi.Lemmas

/-!
# C06: `transpose_blocks`

The global matrix is a list `M` of `nr * nm` rows of `nc` elements, where `nm` is the product of the
middle axes; process `r` passes in the rows of its block of the first axis, possibly with further
columns behind the `nc` of interest, which the function drops.
-/
namespace Verif.Mpi

variable {α : Type}

/-- `A` is what process `r` passes in: the rows of its block of the global matrix `M`, with `last ≥ nc`
columns of which the first `nc` count. -/
structure IsRowBlock (M : List (List α)) (nr : Nat) (mid : List Nat) (nc P r : Nat) (A : Rows α) :
    Prop where
  lead : A.lead = blockLen nr P r :: mid
  rows : A.rows.map (List.take nc)
    = (M.drop (blockStart nr P r * prodL mid)).take (blockLen nr P r * prodL mid)

/-! ### Lemmas -/

theorem chunks_flatten (c : Nat) (l : List (List α)) (h : ∀ row ∈ l, row.length = c) :
    chunks l.length c l.flatten = l := by
  induction l with
  | nil => rfl
  | cons x xs ih =>
    have hx := h x (by simp)
    have ih' := ih fun row hr => h row (by simp [hr])
    unfold chunks at ih' ⊢
    rw [List.length_cons, List.range_succ_eq_map, List.map_cons, List.map_map]
    congr 1
    · simp [hx]
    · conv => rhs; rw [← ih']
      apply List.map_congr_left
      intro k _
      show ((x ++ xs.flatten).drop ((k + 1) * c)).take c = _
      rw [show (k + 1) * c = x.length + k * c by rw [hx, Nat.succ_mul]; omega, List.drop_append,
        List.drop_eq_nil_of_le (by omega)]
      simp

theorem flatten_length (c : Nat) (l : List (List α)) (h : ∀ row ∈ l, row.length = c) :
    l.flatten.length = l.length * c := by
  induction l with
  | nil => simp
  | cons x xs ih =>
    rw [List.flatten_cons, List.length_append, ih fun row hr => h row (by simp [hr]), h x (by simp),
      List.length_cons, Nat.succ_mul]
    omega

section
variable (M : List (List α)) (nr : Nat) (mid : List Nat) (nc P : Nat)
  (hM : M.length = nr * prodL mid) (hrow : ∀ row ∈ M, row.length = nc)
include hM hrow

/-- The rows of process `q`. -/
theorem localRows_ok {q : Nat} (hq : q < P) (A : Rows α) (hA : IsRowBlock M nr mid nc P q A) :
    localRows nr nc (num nr P q * prodL mid) A
      = .ok ((M.drop (blockStart nr P q * prodL mid)).take (blockLen nr P q * prodL mid)) := by
  have hle := block_le nr P hq
  have hle2 : blockStart nr P q * prodL mid + blockLen nr P q * prodL mid ≤ M.length := by
    rw [hM, ← Nat.add_mul]; exact Nat.mul_le_mul_right _ hle
  generalize hR : (M.drop (blockStart nr P q * prodL mid)).take (blockLen nr P q * prodL mid) = R
  have hRlen : R.length = blockLen nr P q * prodL mid := by
    rw [← hR, List.length_take, List.length_drop]; omega
  have hRrow : ∀ row ∈ R, row.length = nc := by
    intro row hr
    rw [← hR] at hr
    exact hrow row (List.mem_of_mem_drop (List.mem_of_mem_take hr))
  have hlen : A.rows.length = blockLen nr P q * prodL mid := by
    have := congrArg List.length hA.rows
    rw [List.length_map, hR, hRlen] at this
    exact this
  unfold localRows
  rw [hA.lead]
  simp only
  rw [Nat.min_eq_left (by omega), List.take_of_length_le (by omega), hA.rows, hR, num_eq _ _ hq,
    if_pos (by rw [flatten_length nc R hRrow, hRlen]), ← hRlen, chunks_flatten nc R hRrow]

end

theorem setRows_length (buf : List (List α)) (s : Nat) (rows : List (List α))
    (h : s + rows.length ≤ buf.length) : (setRows buf s rows).length = buf.length := by
  unfold setRows
  simp only [List.length_append, List.length_take, List.length_drop]
  omega

theorem setRows_getElem? (buf : List (List α)) (s : Nat) (rows : List (List α))
    (h : s + rows.length ≤ buf.length) (k : Nat) :
    (setRows buf s rows)[k]? = if s ≤ k ∧ k < s + rows.length then rows[k - s]? else buf[k]? := by
  unfold setRows
  have hs : (buf.take s).length = s := by rw [List.length_take]; omega
  rcases Nat.lt_or_ge k s with h1 | h1
  · rw [if_neg (by omega), List.append_assoc, List.getElem?_append_left (by omega),
      List.getElem?_take_of_lt h1]
  · rcases Nat.lt_or_ge k (s + rows.length) with h2 | h2
    · rw [if_pos ⟨h1, h2⟩, List.append_assoc, List.getElem?_append_right (by omega), hs,
        List.getElem?_append_left (by omega)]
    · rw [if_neg (by omega), List.getElem?_append_right (by rw [List.length_append]; omega),
        List.getElem?_drop, List.length_append, hs]
      congr 1
      omega

/-- The rows that came from process `q` are those of the global matrix, cut to the columns. -/
def Arrived (M : List (List α)) (nr nm P : Nat) (cols : Nat × Nat) (buf : List (List α)) (q : Nat) :
    Prop :=
  ∀ k, blockStart nr P q * nm ≤ k → k < blockStart nr P q * nm + blockLen nr P q * nm →
    buf[k]? = (colBlock cols M)[k]?

theorem exchange_spec (M : List (List α)) (nr nc nm P r : Nat) (hM : M.length = nr * nm)
    (rowsOf : Nat → List (List α))
    (hrows : ∀ q, q < P → rowsOf q = (M.drop (blockStart nr P q * nm)).take (blockLen nr P q * nm))
    (order : List Nat) (horder : ∀ q ∈ order, q < P) (buf : List (List α))
    (hbuf : buf.length = nr * nm) (D : Nat → Prop)
    (hD : ∀ q, D q → q < P ∧ Arrived M nr nm P (bounds nc P r) buf q) :
    (exchange nr nc nm P r rowsOf order buf).length = nr * nm ∧
    ∀ q, (D q ∨ q ∈ order) →
      Arrived M nr nm P (bounds nc P r) (exchange nr nc nm P r rowsOf order buf) q := by
  induction order generalizing buf D with
  | nil => exact ⟨hbuf, fun q h => (hD q (by simpa using h)).2⟩
  | cons x xs ih =>
    have hx := horder x (by simp)
    have hle := block_le nr P hx
    have hle2 : blockStart nr P x * nm + blockLen nr P x * nm ≤ nr * nm := by
      rw [← Nat.add_mul]; exact Nat.mul_le_mul_right _ hle
    have hlen : (colBlock (bounds nc P r) (rowsOf x)).length = blockLen nr P x * nm := by
      unfold colBlock
      rw [List.length_map, hrows x hx, List.length_take, List.length_drop, hM]; omega
    have hs : (bounds nr P x).1 = blockStart nr P x := by rw [bounds_eq _ _ hx]
    have hstep : exchange nr nc nm P r rowsOf (x :: xs) buf = exchange nr nc nm P r rowsOf xs
        (setRows buf (blockStart nr P x * nm) (colBlock (bounds nc P r) (rowsOf x))) := by
      rw [← hs]; rfl
    have hfit : blockStart nr P x * nm + (colBlock (bounds nc P r) (rowsOf x)).length ≤ buf.length := by
      rw [hlen, hbuf]; exact hle2
    rw [hstep]
    obtain ⟨h1, h2⟩ := ih (fun q hq => horder q (by simp [hq])) _
      (by rw [setRows_length _ _ _ hfit]; exact hbuf) (fun q => D q ∨ q = x) (by
        intro q hq
        by_cases hqx : q = x
        · subst hqx
          refine ⟨hx, fun k k1 k2 => ?_⟩
          rw [setRows_getElem? _ _ _ hfit, hlen, if_pos ⟨k1, k2⟩]
          unfold colBlock
          rw [List.getElem?_map, List.getElem?_map, hrows q hx, List.getElem?_take_of_lt (by omega),
            List.getElem?_drop]
          congr 2
          omega
        · obtain ⟨h4, h5⟩ := hD q (hq.resolve_right hqx)
          refine ⟨h4, fun k k1 k2 => ?_⟩
          rw [setRows_getElem? _ _ _ hfit, hlen, if_neg]
          · exact h5 k k1 k2
          · rintro ⟨j1, j2⟩
            have hle1 : ∀ y z, y < z → blockStart nr P y * nm + blockLen nr P y * nm
                ≤ blockStart nr P z * nm := by
              intro y z hyz
              rw [← Nat.add_mul, ← blockStart_succ]
              exact Nat.mul_le_mul_right _ (blockStart_mono nr P hyz)
            rcases Nat.lt_or_gt_of_ne hqx with h | h
            · have := hle1 _ _ h; omega
            · have := hle1 _ _ h; omega)
    refine ⟨h1, fun q hq => h2 q ?_⟩
    rcases hq with h | h
    · exact .inl (.inl h)
    · rcases List.mem_cons.1 h with h | h
      · exact .inl (.inr h)
      · exact .inr h

/-! ### Theorems -/

/-- C06. On several processes: if each process passes in its block of rows, the call returns on every
process, in whatever order the messages arrive; process `r` then holds every row, cut to the columns
of its block, and the shape is the global shape with the last axis replaced. -/
theorem C06_many_partial (M : List (List α)) (nr : Nat) (mid : List Nat) (nc P : Nat)
    (hM : M.length = nr * prodL mid) (hrow : ∀ row ∈ M, row.length = nc) (arrs : Nat → Rows α)
    (harr : ∀ q, q < P → IsRowBlock M nr mid nc P q (arrs q)) (order : List Nat)
    (horder : ∀ q, q ∈ order ↔ q < P) (junk : Nat → List α) (r : Nat) (hr : r < P) :
    transposeMany nr mid nc P arrs order junk r = .returns ⟨nr :: mid, blockLen nc P r,
      M.map fun row => (row.drop (blockStart nc P r)).take (blockLen nc P r)⟩ := by
  have hloc := fun q hq => localRows_ok M nr mid nc P hM hrow (q := q) hq (arrs q) (harr q hq)
  have hspec := exchange_spec M nr nc (prodL mid) P r hM
    (fun q => okRows (localRows nr nc (num nr P q * prodL mid) (arrs q)))
    (fun q hq => by rw [hloc q hq]; rfl) order (fun q hq => (horder q).1 hq)
    ((List.range (nr * prodL mid)).map junk) (by simp) (fun _ => False) (fun _ h => h.elim)
  unfold transposeMany
  simp only
  rw [hloc r hr]
  simp only
  rw [if_neg, num_eq _ _ hr]
  · congr 2
    apply List.ext_getElem?
    intro k
    have hcols : (M.map fun row => (row.drop (blockStart nc P r)).take (blockLen nc P r))
        = colBlock (bounds nc P r) M := by
      unfold colBlock
      rw [bounds_eq _ _ hr]
      simp
    rw [hcols]
    rcases Nat.lt_or_ge k (nr * prodL mid) with hk | hk
    · have hpos : 0 < prodL mid := Nat.pos_of_ne_zero (by rintro h; rw [h] at hk; simp at hk)
      obtain ⟨q, hq, h1, h2⟩ := block_owner nr P (by omega) (k / prodL mid)
        ((Nat.div_lt_iff_lt_mul hpos).2 hk)
      refine hspec.2 q (.inr ((horder q).2 hq)) k ?_ ?_
      · exact (Nat.le_div_iff_mul_le hpos).1 h1
      · rw [← Nat.add_mul]; exact (Nat.div_lt_iff_lt_mul hpos).1 h2
    · rw [List.getElem?_eq_none (by rw [hspec.1]; exact hk), List.getElem?_eq_none]
      unfold colBlock
      rw [List.length_map, hM]; exact hk
  · rw [Bool.not_eq_true, List.any_eq_false]
    intro q hq
    rw [hloc q (List.mem_range.1 hq)]
    simp [failed]

/-- C06. On one process with `shape` given as a tuple: the process holds all the rows, cut to `nc`
columns, so all columns of the global matrix. -/
theorem C06_one_partial (M : List (List α)) (nr : Nat) (mid : List Nat) (nc : Nat)
    (hM : M.length = nr * prodL mid) (A : Rows α)
    (hA : IsRowBlock M nr mid nc 1 0 A) (hlast : nc ≤ A.last) :
    transposeSerial true (nr :: mid) nc A = .ok ⟨nr :: mid, nc, M⟩ := by
  have hb : blockLen nr 1 0 = nr := by simp [blockLen, Nat.mod_one]
  have hl := hA.lead
  have hr := hA.rows
  rw [hb] at hl hr
  unfold transposeSerial
  rw [if_pos ⟨rfl, hl⟩, hl, hr, Nat.min_eq_right hlast]
  simp only [blockStart, Nat.zero_mul, Nat.zero_min, Nat.add_zero, List.drop_zero, ← hM,
    List.take_length]

/-- C06 fails on one process when `shape` is a list: the documentation allows any sequence and several
processes accept it, but here the call always raises `ValueError`. -/
theorem C06_list_shape_violated (lead : List Nat) (nc : Nat) (A : Rows α) :
    transposeSerial false lead nc A = .error .valueError := by
  unfold transposeSerial; rw [if_neg (by simp)]

example : transposeSerial true [2] 2 (⟨[2], 3, [[1, 2, 0], [4, 5, 0]]⟩ : Rows Nat)
    = .ok ⟨[2], 2, [[1, 2], [4, 5]]⟩ :=
  C06_one_partial [[1, 2], [4, 5]] 2 [] 2 rfl _ ⟨rfl, rfl⟩ (by decide)

/-- A 3 × 2 × 3 array on two processes. Process 0 passes in two of three rows of the first axis, with
one column too many. -/
def exM : List (List Nat) := [[1, 2, 3], [4, 5, 6], [7, 8, 9], [10, 11, 12], [13, 14, 15], [16, 17, 18]]

def exRows (q : Nat) : Rows Nat :=
  if q = 0 then ⟨[2, 2], 4, [[1, 2, 3, 0], [4, 5, 6, 0], [7, 8, 9, 0], [10, 11, 12, 0]]⟩
  else ⟨[1, 2], 3, [[13, 14, 15], [16, 17, 18]]⟩

theorem exRows_block (q : Nat) (hq : q < 2) : IsRowBlock exM 3 [2] 3 2 q (exRows q) := by
  have : q = 0 ∨ q = 1 := by omega
  rcases this with rfl | rfl <;> exact ⟨by decide, by decide⟩

example : transposeMany 3 [2] 3 2 exRows [1, 0] (fun _ => []) 1 =
    .returns ⟨[3, 2], 1, [[3], [6], [9], [12], [15], [18]]⟩ :=
  C06_many_partial exM 3 [2] 3 2 rfl (by decide) exRows exRows_block [1, 0]
    (by intro q; simp; omega) _ 1 (by omega)

end Verif.Mpi
