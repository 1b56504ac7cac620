import Verif.Quick.Layout
import Verif.Quick.Props

/-!
# C19: integers, and arrays that are views of others
-/
namespace Verif.Quick
open Verif.Median (Item)

/-- The result is the one of exact arithmetic and an element, or the mean is rounded. -/
def Rounded (cast : Rat → Rat) (m : Char) (a : List Item) (o o' : Option Rat) : Prop :=
  o = o' ∧ (∀ r, o = some r → m = 'l' ∨ m = 'h' ∨ ∃ x ∈ a, r = x.v) ∨ m ≠ 'l' ∧ m ≠ 'h' ∧ o = o'.map cast

theorem Rounded.none (cast : Rat → Rat) (m : Char) (a : List Item) : Rounded cast m a none none := .inl ⟨rfl, by simp⟩

theorem Rounded.elem (cast : Rat → Rat) (m : Char) (a : List Item) (i : Nat) : Rounded cast m a (valueAt a i) (valueAt a i) := by
  refine .inl ⟨rfl, fun r h => .inr (.inr ?_)⟩
  unfold valueAt at h
  cases e : a[i]? with
  | none => simp [e] at h
  | some x =>
    rw [e] at h
    exact ⟨x, List.mem_of_getElem? e, by simpa using h.symm⟩

theorem Rounded.mono {cast : Rat → Rat} {m : Char} {a b : List Item} {o o' : Option Rat} (h : Rounded cast m a o o') (hab : ∀ x ∈ a, x ∈ b) : Rounded cast m b o o' := by
  rcases h with ⟨h1, h2⟩ | h
  · refine .inl ⟨h1, fun r hr => ?_⟩
    rcases h2 r hr with h | h | ⟨x, hx, e⟩
    · exact .inl h
    · exact .inr (.inl h)
    · exact .inr (.inr ⟨x, hab x hx, e⟩)
  · exact .inr h

theorem boundary_cast (cast : Rat → Rat) (m : Char) (a : List Item) (jj : Nat) : Rounded cast m a (boundary cast m a jj) (boundary id m a jj) := by
  unfold boundary
  cases maxNonZero a 0 jj with
  | none => exact .none _ _ _
  | some i =>
    cases minNonZero a (jj + 1) (a.length - 1) with
    | none => exact .none _ _ _
    | some j =>
      simp only [Option.bind_eq_bind, Option.bind_some]
      cases ey : a[j]? with
      | none => exact .none _ _ _
      | some y =>
        cases ex : a[i]? with
        | none => exact .none _ _ _
        | some x =>
          simp only [Option.bind_some, boundaryValue]
          split
          · exact .inl ⟨rfl, fun r hr => .inr (.inr ⟨x, List.mem_of_getElem? ex, by simpa using hr.symm⟩)⟩
          · split
            · exact .inl ⟨rfl, fun r hr => .inr (.inr ⟨y, List.mem_of_getElem? ey, by simpa using hr.symm⟩)⟩
            · rename_i h1 h2
              exact .inr ⟨fun h => h1 (.inr h), fun h => h2 (.inr h), rfl⟩

theorem hoare_mem (p : Rat) (fuel : Nat) (a : List Item) (ii jj : Nat) (wl : Rat) (r : List Item × Nat × Rat) (h : hoare p fuel a ii jj wl = some r) :
    ∀ x ∈ r.1, x ∈ a := by
  induction fuel generalizing a ii jj wl with
  | zero => simp [hoare] at h
  | succ fuel ih =>
    simp only [hoare, Option.bind_eq_bind] at h
    cases e1 : scanL a p ii wl with
    | none => simp [e1] at h
    | some l =>
      cases e2 : scanR a p jj with
      | none => simp [e1, e2] at h
      | some j' =>
        simp only [e1, e2, Option.bind_some] at h
        split at h
        · unfold meet at h
          split at h
          · cases e3 : weightAt a l.1 with
            | none => simp [e3] at h
            | some w =>
              simp [e3] at h
              subst h
              exact fun x hx => hx
          · simp at h
            subst h
            exact fun x hx => hx
        · cases e3 : swap a l.1 j' with
          | none => simp [e3] at h
          | some a' =>
            cases e4 : weightAt a' l.1 with
            | none => simp [e3, e4] at h
            | some w =>
              simp only [e3, e4, Option.bind_some] at h
              intro x hx
              have hx' := ih _ _ _ _ h x hx
              unfold swap at e3
              split at e3
              · rename_i hl
                simp only [Option.some.injEq] at e3
                subst e3
                rcases List.mem_or_eq_of_mem_set hx' with h4 | rfl
                · rcases List.mem_or_eq_of_mem_set h4 with h5 | rfl
                  · exact h5
                  · exact List.getElem_mem _
                · exact List.getElem_mem _
              · cases e3

theorem select_cast (cast : Rat → Rat) (m : Char) (fuel : Nat) (a : List Item) (i j : Nat) (qs : Rat) :
    Rounded cast m a (select cast m fuel a i j qs) (select id m fuel a i j qs) := by
  induction fuel generalizing a i j qs with
  | zero => exact .none _ _ _
  | succ fuel ih =>
    simp only [select, Option.bind_eq_bind]
    cases valueAt a ((i + j) / 2) with
    | none => exact .none _ _ _
    | some p =>
      simp only [Option.bind_some]
      cases hh : hoare p (a.length + 1) a i j 0 with
      | none => exact .none _ _ _
      | some r =>
        have hm := hoare_mem _ _ _ _ _ _ _ hh
        simp only [Option.bind_some]
        split
        · exact (boundary_cast cast m r.1 r.2.1).mono hm
        · split
          · split
            · exact (Rounded.elem _ _ _ _).mono hm
            · exact (ih _ _ _ _).mono hm
          · split
            · exact (Rounded.elem _ _ _ _).mono hm
            · exact (ih _ _ _ _).mono hm

/-- Numbers of an integer type. -/
def Whole (row : List Item) : Prop := ∀ x ∈ row, ∃ k : Int, x.v = k

/-- The sum of any two numbers of the row is a number of `bits` bits. -/
def SumsFit (bits : Nat) (row : List Item) : Prop := ∀ x ∈ row, ∀ y ∈ row, -(2 ^ bits) ≤ 2 * (x.v + y.v) ∧ 2 * (x.v + y.v) < 2 ^ bits

/-- The number of bits of an integer type. -/
def bitsOf : DType → Option Nat
  | .intc => some 32
  | .long => some 64
  | _ => none

theorem effective_v (row : List Item) : ∀ x ∈ effective row, ∃ y ∈ row, y.v = x.v := by
  intro x hx
  unfold effective at hx
  split at hx
  · obtain ⟨y, hy, rfl⟩ := List.mem_map.1 hx
    exact ⟨y, hy, rfl⟩
  · exact ⟨x, hx, rfl⟩

theorem halfSum_fits (b : Nat) (s : Int) (h1 : -(2 ^ b : Int) ≤ 2 * s) (h2 : 2 * s < 2 ^ b) : halfSum b ((s : Rat) / 2) = ((s : Rat) / 2).floor := by
  have e : 2 * ((s : Rat) / 2) = s := by ring
  have hb : s.bmod (2 ^ b) = s := by
    rw [Int.bmod_eq_of_le_mul_two]
    · push_cast; omega
    · push_cast; omega
  unfold halfSum
  rw [e, Rat.floor_intCast, hb]
  congr 1
  apply Int.le_antisymm
  · rw [Rat.le_floor_iff]
    have h : s / 2 * 2 ≤ s := by omega
    have h' : ((s / 2 : Int) : Rat) * 2 ≤ s := by exact_mod_cast h
    linarith
  · by_contra hc
    have hc' : s / 2 + 1 ≤ ((s : Rat) / 2).floor := by omega
    rw [Rat.le_floor_iff] at hc'
    push_cast at hc'
    have h : s < (s / 2 + 1) * 2 := by omega
    have h' : (s : Rat) < (((s / 2 : Int) : Rat) + 1) * 2 := by exact_mod_cast h
    linarith

/-- C19 for data of any of the four types and the methods lower and higher: one result per row, each the quantile of that row; integers do not matter, as nothing is
computed with data. `_partial`: `q` inside `(0, 1)`; sums of weights are exact. -/
theorem C19_any_type_partial (rows : List (List Item)) (n : Nat) (hn : 0 < n) (hrows : ∀ row ∈ rows, row.length = n) (hw : ∀ row ∈ rows, ∀ x ∈ row, 0 ≤ x.w)
    (ta tw : DType) (hta : ta ≠ .other) (htw : tw ≠ .other) (q : Rat) (hq0 : 0 < q) (hq1 : q < 1) (method : String) (c : Char) (hc : c = 'l' ∨ c = 'h')
    (hm : checkMethod method = some c) :
    ∃ out, quantile rows n true ta tw q method = .ok out ∧
      List.Forall₂ (fun row r => QuantileSpec (effective row) (q * total (effective row)) c r) rows out := by
  have h1 : ¬ (q < 0 ∨ q > 1) := by rintro (h | h) <;> linarith
  have h2 : ¬ (ta = .other ∨ tw = .other) := by rintro (h | h) <;> contradiction
  have h3 : ¬ n = 0 := by omega
  obtain ⟨out, e, ho⟩ := collect_ok (quantileRow (castTo ta) c q) (fun row r => QuantileSpec (effective row) (q * total (effective row)) c r) rows (by
    intro row hr
    have hne : row ≠ [] := by rintro rfl; have := hrows _ hr; simp at this; omega
    obtain ⟨r, e, hs⟩ := C19_inner c q row hne (hw row hr) hq0 hq1
    refine ⟨r, ?_, hs⟩
    rw [← e]
    unfold quantileRow
    rcases select_cast (castTo ta) c _ _ 0 _ _ with ⟨h, -⟩ | ⟨ha, hb, -⟩
    · exact h
    · rcases hc with rfl | rfl <;> contradiction)
  refine ⟨out, ?_, ho⟩
  unfold quantile
  rw [hm]
  simp only [Bool.true_eq_false, if_false, h1, h2, h3]
  exact e

example : quantile [[⟨3, 1⟩, ⟨1, 1⟩], [⟨8, 0⟩, ⟨6, 2⟩]] 2 true .intc .long (1/2) "higher" = .ok [3, 6] := by decide +kernel

/-- C19 for integers and the method split, if the sum of any two elements of a row is a number of the type: each result is the quantile of its row, rounded
down. `_partial`: `q` inside `(0, 1)`; sums of weights are exact; larger numbers (`C19_overflow_violated`); means are rounded (`C19_integer_mean_violated`). -/
theorem C19_integer_partial (rows : List (List Item)) (n : Nat) (hn : 0 < n) (hrows : ∀ row ∈ rows, row.length = n) (hw : ∀ row ∈ rows, ∀ x ∈ row, 0 ≤ x.w)
    (ta tw : DType) (bits : Nat) (hta : bitsOf ta = some bits) (hi : ∀ row ∈ rows, Whole row ∧ SumsFit bits row) (htw : tw ≠ .other)
    (q : Rat) (hq0 : 0 < q) (hq1 : q < 1) :
    ∃ out, quantile rows n true ta tw q "split" = .ok out ∧
      List.Forall₂ (fun row r => ∃ x, QuantileSpec (effective row) (q * total (effective row)) 's' x ∧ r = (x.floor : Rat)) rows out := by
  have h1 : ¬ (q < 0 ∨ q > 1) := by rintro (h | h) <;> linarith
  have h2 : ¬ (ta = .other ∨ tw = .other) := by
    rintro (h | h)
    · subst h; cases hta
    · contradiction
  have h3 : ¬ n = 0 := by omega
  have hcast : castTo ta = halfSum bits := by
    cases ta <;> simp only [bitsOf, Option.some.injEq] at hta
    all_goals first | (subst hta; rfl) | cases hta
  obtain ⟨out, e, ho⟩ := collect_ok (quantileRow (castTo ta) 's' q)
    (fun row r => ∃ x, QuantileSpec (effective row) (q * total (effective row)) 's' x ∧ r = (x.floor : Rat)) rows (by
    intro row hr
    have hne : row ≠ [] := by rintro rfl; have := hrows _ hr; simp at this; omega
    obtain ⟨r, e, hs⟩ := C19_inner 's' q row hne (hw row hr) hq0 hq1
    obtain ⟨hwh, hfit⟩ := hi row hr
    have hkey : (∃ k : Int, r = k ∧ -(2 ^ bits : Int) ≤ 4 * k ∧ 4 * k < 2 ^ bits) ∨ ∃ k : Int, r = (k : Rat) / 2 ∧ -(2 ^ bits : Int) ≤ 2 * k ∧ 2 * k < 2 ^ bits := by
      rcases hs with ⟨x, hx, -, -, -, rfl⟩ | ⟨a, ha, b, hb, -, -, -, -, -, rfl⟩
      · left
        obtain ⟨y, hy, hyx⟩ := effective_v row x hx
        obtain ⟨k, hk⟩ := hwh y hy
        have := hfit y hy y hy
        rw [hk] at this
        refine ⟨k, by rw [← hyx, hk], ?_, ?_⟩
        · have h := this.1
          have : (-(2 ^ bits) : Rat) ≤ 4 * k := by linarith
          exact_mod_cast this
        · have h := this.2
          have : (4 * k : Rat) < 2 ^ bits := by linarith
          exact_mod_cast this
      · right
        obtain ⟨a', ha', e1⟩ := effective_v row a ha
        obtain ⟨b', hb', e2⟩ := effective_v row b hb
        obtain ⟨k, hk⟩ := hwh a' ha'
        obtain ⟨l, hl⟩ := hwh b' hb'
        have := hfit a' ha' b' hb'
        rw [hk, hl] at this
        refine ⟨k + l, ?_, ?_, ?_⟩
        · rw [← e1, ← e2, hk, hl]; simp [pick]
        · have h := this.1
          exact_mod_cast h
        · have h := this.2
          exact_mod_cast h
    have hfl : halfSum bits r = r.floor := by
      rcases hkey with ⟨k, rfl, k1, k2⟩ | ⟨k, rfl, k1, k2⟩
      · have := halfSum_fits bits (2 * k) (by omega) (by omega)
        have e2 : (((2 * k : Int) : Rat) / 2) = k := by push_cast; ring
        rwa [e2] at this
      · exact halfSum_fits bits k k1 k2
    refine ⟨(r.floor : Rat), ?_, r, hs, rfl⟩
    unfold quantileRow at e ⊢
    rw [hcast]
    rcases select_cast (halfSum bits) 's' _ _ 0 _ _ with ⟨h, hv⟩ | ⟨-, -, h⟩
    · rw [h, e]
      rw [e] at h
      rcases hv r h with h4 | h4 | ⟨x, hx, rfl⟩
      · cases h4
      · cases h4
      · have : ∃ y ∈ row, y.v = x.v := by
          split at hx
          · obtain ⟨y, hy, rfl⟩ := List.mem_map.1 hx
            exact ⟨y, hy, rfl⟩
          · exact ⟨x, hx, rfl⟩
        obtain ⟨y, hy, hyx⟩ := this
        obtain ⟨k, hk⟩ := hwh y hy
        rw [← hyx, hk, Rat.floor_intCast]
    · rw [h, e]
      simp [hfl])
  refine ⟨out, ?_, ho⟩
  unfold quantile
  simp only [checkMethod, if_true, Bool.true_eq_false, if_false, h1, h2, h3]
  exact e

example : quantile [[⟨3, 1⟩, ⟨-6, 1⟩]] 2 true .intc .long (1/2) "split" = .ok [-2] ∧ Whole [⟨3, 1⟩, ⟨-6, 1⟩] ∧ SumsFit 32 [⟨3, 1⟩, ⟨-6, 1⟩] := by
  refine ⟨by decide +kernel, ?_, ?_⟩
  · intro x hx
    simp at hx
    rcases hx with rfl | rfl
    · exact ⟨3, by norm_num⟩
    · exact ⟨-6, by norm_num⟩
  · intro x hx y hy
    simp at hx hy
    rcases hx with rfl | rfl <;> rcases hy with rfl | rfl <;> norm_num

/-- C19 is violated for large integers: the median of the largest number of 32 bits and itself is -1, which is not a quantile. The same for 64 bits. -/
theorem C19_overflow_violated :
    quantile [[⟨2147483647, 1⟩, ⟨2147483647, 1⟩]] 2 true .intc .double (1/2) "split" = .ok [-1] ∧
    quantile [[⟨9223372036854775807, 1⟩, ⟨9223372036854775807, 1⟩]] 2 true .long .double (1/2) "split" = .ok [-1] ∧
    ¬ ∃ x, QuantileSpec [⟨2147483647, 1⟩, ⟨2147483647, 1⟩] (1/2 * 2) 's' x ∧ (-1 : Rat) = x.floor := by
  refine ⟨by decide +kernel, by decide +kernel, ?_⟩
  rintro ⟨x, ⟨a, ha, -, -, -, rfl⟩ | ⟨a, ha, b, hb, -, -, h, -⟩, hx⟩
  · simp at ha
    subst ha
    revert hx
    decide +kernel
  · simp at ha hb
    subst ha; subst hb
    exact absurd h (by decide +kernel)

/-- The elements follow each other in memory row by row. -/
def RowByRow (v : View) : Prop := ∀ i < v.rows, ∀ j < v.n, v.first + i * v.s0 + j * v.s1 = v.first + i * v.n + j

theorem rowByRow_contiguous (v : View) (h : RowByRow v) : v.contiguous = true := by
  by_cases hr : v.rows = 0
  · simp [View.contiguous, hr]
  by_cases hn : v.n = 0
  · simp [View.contiguous, hn]
  have h1 : v.n = 1 ∨ v.s1 = 1 := by
    by_cases h1 : v.n = 1
    · exact .inl h1
    · have := h 0 (by omega) 1 (by omega)
      simp only [Nat.cast_zero, zero_mul, add_zero, Nat.cast_one, one_mul] at this
      exact .inr (by omega)
  have h2 : v.rows = 1 ∨ v.s0 = v.n := by
    by_cases h2 : v.rows = 1
    · exact .inl h2
    · have := h 1 (by omega) 0 (by omega)
      simp only [Nat.cast_zero, zero_mul, add_zero, Nat.cast_one, one_mul] at this
      exact .inr (by omega)
  simp [View.contiguous, h1, h2]

/-- C19, arrays with one or two axes that may be written and whose elements follow each other row by row, of floating point type: one result per row, each the quantile of the
elements of that row. Missing: other arrays (`C19_layout_violated`), and what is missing in `C19_rows_partial`. -/
theorem C19_layout_partial (A W : View) (hr : A.rows = W.rows) (hn : A.n = W.n) (h0 : 0 < A.n) (hwa : A.writable = true) (hww : W.writable = true)
    (ha : RowByRow A) (hb : RowByRow W) (hw : ∀ i < A.rows, ∀ j < A.n, 0 ≤ W.at i j) (ta tw : DType)
    (hta : ta = .single ∨ ta = .double) (htw : tw ≠ .other) (q : Rat) (hq0 : 0 < q) (hq1 : q < 1) (method : String) (c : Char) (hm : checkMethod method = some c) :
    ∃ out, quantileView A W ta tw q method = .ok out ∧ out.length = A.rows ∧ ∀ i < A.rows, ∃ r row, out[i]? = some r ∧ row.length = A.n ∧
      (∀ j < A.n, row[j]? = some ⟨A.at i j, W.at i j⟩) ∧ QuantileSpec (effective row) (q * total (effective row)) c r := by
  obtain ⟨out, e, ho⟩ := C19_rows_partial (A.items W) A.n h0 (by
      intro row h; obtain ⟨i, -, rfl⟩ := List.mem_map.1 h; simp) (by
      intro row h x hx
      obtain ⟨i, hi, rfl⟩ := List.mem_map.1 h
      obtain ⟨j, hj, rfl⟩ := List.mem_map.1 hx
      exact hw i (List.mem_range.1 hi) j (List.mem_range.1 hj)) ta tw hta htw q hq0 hq1 method c hm
  have hlen : out.length = A.rows := by rw [← ho.length_eq]; simp [View.items]
  refine ⟨out, ?_, hlen, fun i hi => ?_⟩
  · have h1 : ¬ (q < 0 ∨ q > 1) := by rintro (h | h) <;> linarith
    have h2 : ¬ (ta = .other ∨ tw = .other) := by
      rintro (h | h)
      · rcases hta with h' | h' <;> rw [h'] at h <;> cases h
      · exact htw h
    have h3 : ¬ A.n = 0 := by omega
    unfold quantileView
    rw [hm]
    simp only [hr, hn, and_self, not_true_eq_false, if_false, h1, h2]
    rw [← hn]
    simp only [h3, if_false]
    rw [if_pos (by simp [View.accepted, rowByRow_contiguous A ha, rowByRow_contiguous W hb, hwa, hww])]
    exact e
  · have hlt : i < out.length := by omega
    refine ⟨out[i], (List.range A.n).map fun j => ⟨A.at i j, W.at i j⟩, List.getElem?_eq_getElem hlt, by simp, fun j hj => ?_, ?_⟩
    · simp [List.getElem?_range hj]
    · have := List.forall₂_iff_get.1 ho
      have h := this.2 i (by simpa [View.items] using hi) hlt
      simpa [View.items] using h

/-- A single column taken out of an array with three columns does not lie row by row; a single row of any array does, whatever the distance of the rows, and so do two
rows of two elements and an array without rows. -/
example : RowByRow ⟨1, 3, 5, 77, 1, true, fun i => i⟩ ∧ RowByRow ⟨2, 2, 0, 2, 1, true, fun i => i⟩ ∧ RowByRow ⟨0, 4, 0, 9, 9, true, fun i => i⟩ ∧
    RowByRow ⟨3, 1, 0, 1, 12, true, fun i => i⟩ ∧ ¬ RowByRow ⟨2, 1, 0, 3, 1, true, fun i => i⟩ := by
  refine ⟨?_, ?_, ?_, ?_, ?_⟩ <;> simp only [RowByRow] <;> decide

/-- The hypotheses hold for the rows 3, 1 and 8, 6, and the medians are 2 and 7. -/
example : quantileView ⟨2, 2, 0, 2, 1, true, fun i => if i = 0 then 3 else if i = 1 then 1 else if i = 2 then 8 else 6⟩ ⟨2, 2, 0, 2, 1, true, fun _ => 1⟩
    .double .double (1/2) "split" = .ok [2, 7] := by decide +kernel

/-- C19 is violated for arrays that do not lie in memory row by row, whatever they hold: a part of the columns of another array (`X[:, :5]`), a transposed one, every second
element of an array with one axis; and for arrays that must not be written, such as `np.broadcast_to(w, A.shape)`. All of them are refused. -/
theorem C19_layout_violated (A W : View) (ta tw : DType) (q : Rat) (method : String) (hta : ta ≠ .other) (htw : tw ≠ .other)
    (h : (2 ≤ A.n ∧ 0 < A.rows ∧ A.s1 ≠ 1) ∨ (2 ≤ A.rows ∧ 0 < A.n ∧ A.s0 ≠ A.n) ∨ A.writable = false ∨
      (2 ≤ W.n ∧ 0 < W.rows ∧ W.s1 ≠ 1) ∨ (2 ≤ W.rows ∧ 0 < W.n ∧ W.s0 ≠ W.n) ∨ W.writable = false) :
    quantileView A W ta tw q method = .valueError := by
  have hacc : (A.accepted && W.accepted) = false := by
    have key : ∀ v : View, (2 ≤ v.n ∧ 0 < v.rows ∧ v.s1 ≠ 1) ∨ (2 ≤ v.rows ∧ 0 < v.n ∧ v.s0 ≠ v.n) ∨ v.writable = false → v.accepted = false := by
      intro v hv
      rcases hv with ⟨h1, h2, h3⟩ | ⟨h1, h2, h3⟩ | h1
      · have e1 : v.rows ≠ 0 := by omega
        have e2 : v.n ≠ 0 := by omega
        have e3 : v.n ≠ 1 := by omega
        simp [View.accepted, View.contiguous, e1, e2, e3, h3]
      · have e1 : v.rows ≠ 0 := by omega
        have e2 : v.n ≠ 0 := by omega
        have e3 : v.rows ≠ 1 := by omega
        simp [View.accepted, View.contiguous, e1, e2, e3, h3]
      · simp [View.accepted, h1]
    rcases h with h | h | h | h | h | h
    · rw [key A (.inl h)]; rfl
    · rw [key A (.inr (.inl h))]; rfl
    · rw [key A (.inr (.inr h))]; rfl
    · rw [key W (.inl h), Bool.and_false]
    · rw [key W (.inr (.inl h)), Bool.and_false]
    · rw [key W (.inr (.inr h)), Bool.and_false]
  unfold quantileView
  cases checkMethod method with
  | none => rfl
  | some c => simp [hacc, hta, htw]

/-- The two leftmost columns of an array with three. -/
example : quantileView ⟨2, 2, 0, 3, 1, true, fun i => i⟩ ⟨2, 2, 0, 2, 1, true, fun _ => 1⟩ .double .double (1/2) "split" = .valueError := by decide +kernel

end Verif.Quick
