import Verif.Forms.GridSpec
import Verif.Forms.DecoProps

namespace Verif.Grid

open Verif.Stellar (Sky Obs pmod rint stellarSecond siderealSecond)
open Verif.Forms (PyErr)
open Verif.Deco (Arr Arg bshape sub indices Broadcast Goes Inside axis bshape_some inside_axis goes_unique axis_sub inside_sub mem_indices)

theorem sub_self (t i : List Nat) (h : Inside i t) : sub t i = i := by
  have h' := (inside_axis i t).1 h
  refine goes_unique t i _ _ (axis_sub t i (by omega)) ⟨h'.1, fun k hk => ?_⟩
  split
  · rename_i h1
    cases hx : axis i k with
    | none =>
      unfold axis at hx
      simp at hx
      omega
    | some x =>
      have := h'.2 k x 1 hx h1
      simp only [Option.some.injEq]
      omega
  · rfl

theorem broadcast_swap (a b t : List Nat) : Broadcast [a, b] t ↔ Broadcast [b, a] t := by
  unfold Broadcast
  simp only [List.mem_cons, List.not_mem_nil, or_false, forall_eq_or_imp, forall_eq, exists_eq_or_imp, exists_eq_left]
  constructor
  · rintro ⟨⟨h1, h2⟩, h⟩
    exact ⟨⟨h2, h1⟩, fun k d hk => ⟨⟨(h k d hk).1.2, (h k d hk).1.1⟩, (h k d hk).2.symm⟩⟩
  · rintro ⟨⟨h1, h2⟩, h⟩
    exact ⟨⟨h2, h1⟩, fun k d hk => ⟨⟨(h k d hk).1.2, (h k d hk).1.1⟩, (h k d hk).2.symm⟩⟩

theorem bshape_swap (a b : List Nat) : bshape [a, b] = bshape [b, a] := Deco.bshape_congr _ _ fun t => broadcast_swap a b t

theorem bshape_absorb (l : List (List Nat)) (s t : List Nat) (h : bshape l = some t) (hs : s ∈ l) : bshape [s, t] = some t := by
  rw [bshape_some] at h ⊢
  refine ⟨?_, fun k d hk => ⟨?_, t, by simp, hk⟩⟩
  · intro x hx
    simp only [List.mem_cons, List.not_mem_nil, or_false] at hx
    rcases hx with rfl | rfl
    · exact h.1 _ hs
    · exact le_refl _
  · intro x hx e he
    simp only [List.mem_cons, List.not_mem_nil, or_false] at hx
    rcases hx with rfl | rfl
    · exact (h.2 k d hk).1 _ hs e he
    · rw [hk] at he
      exact .inr (Option.some.inj he).symm

theorem bshape_self (t : List Nat) : bshape [t, t] = some t := by
  rw [bshape_some]
  refine ⟨by simp, fun k d hk => ⟨?_, t, by simp, hk⟩⟩
  intro x hx e he
  simp only [List.mem_cons, List.not_mem_nil, or_false, or_self] at hx
  subst hx
  rw [hk] at he
  exact .inr (Option.some.inj he).symm

/-- Arrays with axes, none of which has length zero. -/
def Full (s : List Nat) : Prop := s ≠ [] ∧ 0 ∉ s

theorem full_broadcast (a b t : List Nat) (h : bshape [a, b] = some t) (ha : Full a) (hb : Full b) : Full t := by
  rw [bshape_some] at h
  constructor
  · rintro rfl
    have := h.1 a (by simp)
    have h0 : a.length = 0 := by simpa using this
    exact ha.1 (List.length_eq_zero_iff.1 h0)
  · intro h0
    obtain ⟨k, hk, hk'⟩ := List.getElem_of_mem (List.mem_reverse.2 h0)
    have hax : axis t k = some 0 := by
      unfold axis
      rw [List.getElem?_eq_getElem hk, hk']
    obtain ⟨-, s, hs, hs'⟩ := h.2 k 0 hax
    have hm : 0 ∈ s := by
      unfold axis at hs'
      exact List.mem_reverse.1 (List.mem_of_getElem? hs')
    simp only [List.mem_cons, List.not_mem_nil, or_false] at hs
    rcases hs with rfl | rfl
    · exact ha.2 hm
    · exact hb.2 hm

/-- There is a place in an array without axes of length zero. -/
theorem inside_exists (t : List Nat) (h : 0 ∉ t) : ∃ i, Inside i t := by
  unfold Inside
  induction t with
  | nil => exact ⟨[], .nil⟩
  | cons n t ih =>
    simp only [List.mem_cons, not_or] at h
    obtain ⟨i, hi⟩ := ih h.2
    exact ⟨0 :: i, .cons (by omega) hi⟩

/-- The array is the result. -/
def wrap : Except PyErr (Arr ℚ) → Except PyErr V
  | .error e => .error e
  | .ok a => .ok (.arr a)

/-- What a computation gives for a shape. -/
def Res (r : Except PyErr (Arr ℚ)) (t : List Nat) (v : List Nat → Except Stellar.PyErr ℚ) : Prop :=
  (∃ o, r = .ok o ∧ o.shape = t ∧ ∀ i, Inside i t → v i = .ok (o.get i)) ∨
  (r = .error .runtimeError ∧ ∃ i, Inside i t ∧ v i = .error .runtimeError)

theorem fills (at' : List Nat → Except Stellar.PyErr ℚ → Prop) (t : List Nat) (v : List Nat → Except Stellar.PyErr ℚ)
    (r : Except PyErr (Arr ℚ)) (R : Except PyErr V) (hR : R = wrap r)
    (h : Res r t v) (hv : ∀ i, Inside i t → ∀ y, at' i y ↔ v i = y) : Fills at' t R := by
  subst hR
  rcases h with ⟨o, rfl, ho, h⟩ | ⟨rfl, i, hi, h⟩
  · refine ⟨?_, ?_, ?_⟩
    · intro o' h'
      injection h' with h'
      injection h' with h'
      subst h'
      exact ⟨ho, fun i hi => (hv i hi _).2 (h i hi)⟩
    · exact ⟨fun _ i hi => ⟨o.get i, (hv i hi _).2 (h i hi)⟩, fun _ => ⟨o, rfl⟩⟩
    · exact fun h' => absurd ⟨o, rfl⟩ h'
  · refine ⟨?_, ?_, fun _ => rfl⟩
    · intro o' h'
      cases h'
    · constructor
      · rintro ⟨o, h'⟩
        cases h'
      · intro h'
        obtain ⟨y, hy⟩ := h' i hi
        rw [hv i hi, h] at hy
        cases hy

theorem timeAttr_full (attr : ℚ → ℚ) (a : Arr ℚ) (h : Full a.shape) : timeAttr attr a = .ok (amap attr a) := by
  obtain ⟨s, g⟩ := a
  cases s with
  | nil => exact absurd rfl h.1
  | cons n s =>
    have hn : ¬ ((n == 0) = true) := by
      have := h.2
      simp only [List.mem_cons, not_or] at this
      simp only [beq_iff_eq]
      omega
    unfold timeAttr makeArray
    simp only
    rw [if_neg hn]

theorem scalarize_arr (body : List (Arr ℚ) → Except PyErr (Arr ℚ)) (a : Arg ℚ) (h1 : ¬ a.isOne) (h : Full a.array.shape) :
    scalarize body [a] = wrap (body [a.array]) := by
  have key : ∀ x : Arr ℚ, Full x.shape → makeArray (.arr x) = .ok (x, false, false) := by
    rintro ⟨s, g⟩ hx
    cases s with
    | nil => exact absurd rfl hx.1
    | cons n s =>
      have hn : (n == 0) = false := by
        have := hx.2
        simp only [List.mem_cons, not_or] at this
        simp only [beq_eq_false_iff_ne]
        omega
      simp only [makeArray, hn]
  cases a with
  | one x => exact absurd trivial h1
  | seq x =>
    have hk : makeArray (.seq x) = .ok (x, false, false) := key x h
    simp only [scalarize, makeArrays, hk, Arg.array]
    cases hb : body [x] <;> simp [hb, wrap]
  | arr x =>
    have hk := key x h
    simp only [scalarize, makeArrays, hk, Arg.array]
    cases hb : body [x] <;> simp [hb, wrap]

theorem makeArray_usual (a : Arg ℚ) (h : Usual a) : makeArray a = .ok (Deco.boxed a, Deco.isOneB a, false) := by
  cases a with
  | one x => rfl
  | seq x =>
    obtain ⟨s, g⟩ := x
    rcases h with h | h
    · cases h
    · cases s with
      | nil => exact absurd rfl h.1
      | cons n s =>
        have hn : (n == 0) = false := by
          have := h.2
          simp only [Arg.array, List.mem_cons, not_or] at this
          simp only [beq_eq_false_iff_ne]
          omega
        simp only [makeArray, hn, Deco.boxed, Deco.isOneB]
  | arr x =>
    obtain ⟨s, g⟩ := x
    rcases h with h | h
    · cases h
    · cases s with
      | nil => exact absurd rfl h.1
      | cons n s =>
        have hn : (n == 0) = false := by
          have := h.2
          simp only [Arg.array, List.mem_cons, not_or] at this
          simp only [beq_eq_false_iff_ne]
          omega
        simp only [makeArray, hn, Deco.boxed, Deco.isOneB]

theorem isOneB_iff (a : Arg ℚ) : Deco.isOneB a = true ↔ a.isOne := by cases a <;> simp [Deco.isOneB, Deco.Arg.isOne]

theorem scalarize_pair (body : List (Arr ℚ) → Except PyErr (Arr ℚ)) (a b : Arg ℚ) (ha : Usual a) (hb : Usual b)
    (h : ¬ (a.isOne ∧ b.isOne)) :
    scalarize body [a, b] = wrap (body [Deco.boxed a, Deco.boxed b]) := by
  have h' : ¬ ((Deco.isOneB a && (Deco.isOneB b && true)) = true) := by
    simp only [Bool.and_true, Bool.and_eq_true, isOneB_iff]
    exact h
  simp only [scalarize, makeArrays, makeArray_usual a ha, makeArray_usual b hb, List.all_cons, List.all_nil, List.map_cons, List.map_nil]
  cases body [Deco.boxed a, Deco.boxed b] with
  | error e => rfl
  | ok r =>
    simp only [Bool.false_and, Bool.false_eq_true, if_false]
    exact if_neg h'

theorem boxed_full (a : Arg ℚ) (h : Usual a) : Full (Deco.boxed a).shape := by
  cases a with
  | one x => exact ⟨by simp [Deco.boxed], by simp [Deco.boxed]⟩
  | seq x => exact h.resolve_left (fun h => by cases h)
  | arr x => exact h.resolve_left (fun h => by cases h)

end Verif.Grid
