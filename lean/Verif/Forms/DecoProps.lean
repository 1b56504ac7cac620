import Verif.Forms.DecoLemmas

/-!
# C127: functions made for numbers on arrays
-/
namespace Verif.Deco

variable {α β κ : Type}

theorem broadcast_nil (l : List (List Nat)) : Broadcast l [] ↔ ∀ s ∈ l, s = [] := by
  unfold Broadcast
  constructor
  · rintro ⟨h, -⟩ s hs
    exact List.length_eq_zero_iff.1 (by simpa using h s hs)
  · intro h
    exact ⟨fun s hs => by rw [h s hs]; exact Nat.le_refl _, fun k d hd => by simp [axis] at hd⟩

/-- A result of numpy without axes is that for the numbers. -/
theorem ufunc_nil (g : List α → Except PyErr β) (args : List (Arr α)) (y : β) :
    ufunc g args = .ok ⟨[], [y]⟩ ↔ (∀ a ∈ args, a.shape = []) ∧ g (args.map fun a => a.get []) = .ok y := by
  unfold ufunc
  by_cases h : ∀ a ∈ args, a.shape = []
  · have hb : bshape (args.map (·.shape)) = some [] := by
      rw [bshape_some, broadcast_nil]
      intro s hs
      obtain ⟨a, ha, rfl⟩ := List.mem_map.1 hs
      exact h a ha
    have hm : (args.map fun a => a.get (sub a.shape [])) = args.map fun a => a.get [] := by
      apply List.map_congr_left
      intro a ha
      rw [h a ha]
      rfl
    rw [hb]
    simp only [indices, eachOf, hm]
    cases g (args.map fun a => a.get []) with
    | error e => simp
    | ok z => simpa using fun _ => h
  · constructor
    · intro h'
      exfalso
      apply h
      cases hb : bshape (args.map (·.shape)) with
      | none => rw [hb] at h'; cases h'
      | some t =>
        rw [hb] at h'
        simp only at h'
        split at h'
        · cases h'
        · simp only [Except.ok.injEq, Out.mk.injEq] at h'
          rw [h'.1, bshape_some, broadcast_nil] at hb
          exact fun a ha => hb _ (List.mem_map_of_mem (f := (·.shape)) ha)
    · exact fun h' => absurd h'.1 h

theorem res_arr (g : List α → Except PyErr β) (args : List (Arr α)) (o : Out β) :
    finish (ufunc g args) = .ok (.arr o) ↔ o.shape ≠ [] ∧ Elementwise g args o := by
  rw [← ufunc_ok]
  cases h : ufunc g args with
  | error e => simp [finish]
  | ok o' =>
    simp only [Except.ok.injEq, finish]
    by_cases hs : o'.shape = []
    · rw [if_pos hs]
      constructor
      · intro h; split at h <;> cases h
      · rintro ⟨h1, rfl⟩; exact absurd hs h1
    · rw [if_neg hs]
      simp only [Except.ok.injEq, Res.arr.injEq]
      constructor
      · rintro rfl; exact ⟨hs, rfl⟩
      · exact fun h => h.2

theorem res_one (g : List α → Except PyErr β) (args : List (Arr α)) (y : β) :
    finish (ufunc g args) = .ok (.one y) ↔
      (∀ a ∈ args, a.shape = []) ∧ g (args.map fun a => a.get []) = .ok y := by
  rw [← ufunc_nil]
  cases h : ufunc g args with
  | error e => simp [finish]
  | ok o =>
    have hd := ((ufunc_ok g args o).1 h).2.length_eq
    obtain ⟨s, d⟩ := o
    simp only [Except.ok.injEq, Out.mk.injEq, finish] at hd ⊢
    by_cases hs : s = []
    · subst hs
      simp only [if_true, true_and]
      match d, hd with
      | [z], _ => simp
    · rw [if_neg hs]
      simp [hs]

theorem finish_error (g : List α → Except PyErr β) (args : List (Arr α)) (e : PyErr) :
    finish (ufunc g args) = .error e ↔ ufunc g args = .error e := by
  cases h : ufunc g args with
  | error e' => simp [finish]
  | ok o =>
    have hd := ((ufunc_ok _ _ o).1 h).2.length_eq
    obtain ⟨s, d⟩ := o
    simp only [finish] at hd ⊢
    by_cases hs : s = []
    · subst hs
      match d, hd with
      | [z], _ => simp
    · simp [hs]

/-- Errors of numpy's loop: shapes that do not fit, or the first error of the function in the order of C. -/
theorem ufunc_error (g : List α → Except PyErr β) (args : List (Arr α)) (e : PyErr) :
    ufunc g args = .error e ↔
      ((¬ ∃ t, Broadcast (args.map (·.shape)) t) ∧ e = .valueError) ∨
      ∃ t pre i post, Broadcast (args.map (·.shape)) t ∧ indices t = pre ++ i :: post ∧
        (∀ j ∈ pre, ∃ y, g (args.map fun a => a.get (sub a.shape j)) = .ok y) ∧ g (args.map fun a => a.get (sub a.shape i)) = .error e := by
  unfold ufunc
  cases hb : bshape (args.map (·.shape)) with
  | none =>
    have hn : ∀ t, ¬ Broadcast (args.map (·.shape)) t := fun t ht => by rw [← bshape_some, hb] at ht; cases ht
    simp only [Except.error.injEq]
    constructor
    · rintro rfl
      exact .inl ⟨fun ⟨t, ht⟩ => hn t ht, rfl⟩
    · rintro (⟨-, rfl⟩ | ⟨t, -, -, -, ht, -⟩)
      · rfl
      · exact absurd ht (hn t)
  | some t =>
    have ht := (bshape_some _ _).1 hb
    simp only
    refine Iff.trans (b := eachOf (fun i => g (args.map fun a => a.get (sub a.shape i))) (indices t) = .error e) ?_ ?_
    · cases eachOf (fun i => g (args.map fun a => a.get (sub a.shape i))) (indices t) <;> simp
    · rw [eachOf_error]
      constructor
      · rintro ⟨pre, i, post, h1, h2, h3⟩
        exact .inr ⟨t, pre, i, post, ht, h1, h2, h3⟩
      · rintro (⟨h, -⟩ | ⟨t', pre, i, post, ht', h1, h2, h3⟩)
        · exact absurd ⟨t, ht⟩ h
        · rw [← bshape_some, hb] at ht'
          cases ht'
          exact ⟨pre, i, post, h1, h2, h3⟩

/-- **C127** (`vectorize` with `otypes`). The call gives an array exactly if that array has the broadcast shape of the arguments, which is not
that of a number, and its elements are, in order, what the function gives for the elements, converted to the type asked for; it gives a
number exactly if all arguments are numbers (or arrays without axes) and it is that of the function for these. -/
theorem C127_vectorize (k : Kinds β κ) (t : κ) (f : List α → Except PyErr β) (args : List (Arg α)) :
    (∀ o, vectorize k (some t) f args = .ok (.arr o) ↔
      o.shape ≠ [] ∧ Elementwise (fun xs => (f xs).map (k.conv t)) (args.map Arg.array) o) ∧
    (∀ y, vectorize k (some t) f args = .ok (.one y) ↔
      (∀ a ∈ args, a.array.shape = []) ∧ (f (args.map fun a => a.array.get [])).map (k.conv t) = .ok y) := by
  unfold vectorize npVectorize
  refine ⟨fun o => res_arr _ _ o, fun y => (res_one _ _ y).trans ?_⟩
  simp only [List.forall_mem_map, List.map_map, Function.comp_def]

/-- The indices come in the order of C, each inside the shape once. -/
theorem C127_order (s : List Nat) : (∀ i, i ∈ indices s ↔ Inside i s) ∧ (indices s).Pairwise (fun i j => List.Lex (· < ·) i j) := by
  refine ⟨mem_indices s, ?_⟩
  induction s with
  | nil => simp [indices]
  | cons n s ih =>
    rw [indices, List.pairwise_flatMap]
    refine ⟨fun i _ => ?_, ?_⟩
    · rw [List.pairwise_map]
      exact ih.imp fun h => .cons h
    · refine (List.pairwise_lt_range (n := n)).imp fun h x hx y hy => ?_
      obtain ⟨x', -, rfl⟩ := List.mem_map.1 hx
      obtain ⟨y', -, rfl⟩ := List.mem_map.1 hy
      exact .rel h

/-- **C127** (errors). A call of `vectorize` with `otypes` raises exactly if the shapes do not fit together (`ValueError`), or if the function raises
for an element: then it is the error for the first of them. -/
theorem C127_raises (k : Kinds β κ) (t : κ) (f : List α → Except PyErr β) (args : List (Arg α)) (e : PyErr) :
    vectorize k (some t) f args = .error e ↔
      ((¬ ∃ s, Broadcast (args.map (·.array.shape)) s) ∧ e = .valueError) ∨
      ∃ s pre i post, Broadcast (args.map (·.array.shape)) s ∧ indices s = pre ++ i :: post ∧
        (∀ j ∈ pre, ∃ y, At f args j (.ok y)) ∧ At f args i (.error e) := by
  have h1 : vectorize k (some t) f args = .error e ↔ ufunc (fun xs => (f xs).map (k.conv t)) (args.map Arg.array) = .error e := by
    unfold vectorize npVectorize
    exact finish_error _ _ e
  have h2 : ∀ xs, (∃ y, (f xs).map (k.conv t) = .ok y) ↔ ∃ y, f xs = .ok y := by
    intro xs
    cases f xs <;> simp [Except.map]
  have h3 : ∀ xs, (f xs).map (k.conv t) = .error e ↔ f xs = .error e := by
    intro xs
    cases f xs <;> simp [Except.map]
  have hmm : (args.map Arg.array).map (·.shape) = args.map (·.array.shape) := by rw [List.map_map]; rfl
  rw [h1, ufunc_error]
  simp only [h2, h3]
  rw [hmm]
  refine or_congr Iff.rfl ?_
  have key : ∀ s i r, Broadcast (args.map (·.array.shape)) s → i ∈ indices s →
      (f ((args.map Arg.array).map fun a => a.get (sub a.shape i)) = r ↔ At f args i r) := by
    intro s i r hb hi
    unfold At
    exact picked f (args.map Arg.array) s i r (by rw [hmm]; exact hb) ((mem_indices s i).1 hi)
  constructor
  · rintro ⟨s, pre, i, post, hb, hi, hp, he⟩
    refine ⟨s, pre, i, post, hb, hi, fun j hj => ?_, (key s i _ hb (by rw [hi]; simp)).1 he⟩
    obtain ⟨y, hy⟩ := hp j hj
    exact ⟨y, (key s j _ hb (by rw [hi]; simp [hj])).1 hy⟩
  · rintro ⟨s, pre, i, post, hb, hi, hp, he⟩
    refine ⟨s, pre, i, post, hb, hi, fun j hj => ?_, (key s i _ hb (by rw [hi]; simp)).2 he⟩
    obtain ⟨y, hy⟩ := hp j hj
    exact ⟨y, (key s j _ hb (by rw [hi]; simp [hj])).2 hy⟩

/-- **C127** (`vectorize` without `otypes`). If no argument is without elements and no result is changed by conversion to the type of another,
the same holds without the conversion; arguments without elements are refused. -/
theorem C127_untyped_partial (k : Kinds β κ) (f : List α → Except PyErr β) (args : List (Arg α)) :
    ((∃ a ∈ args, 0 ∈ a.array.shape) → vectorize k none f args = .error .valueError) ∧
    ((∀ a ∈ args, 0 ∉ a.array.shape) → (∀ xs xs' y y', f xs = .ok y → f xs' = .ok y' → k.conv (k.kind y) y' = y') →
      (∀ o, vectorize k none f args = .ok (.arr o) ↔ o.shape ≠ [] ∧ Elementwise f (args.map Arg.array) o) ∧
      (∀ y, vectorize k none f args = .ok (.one y) ↔
        (∀ a ∈ args, a.array.shape = []) ∧ f (args.map fun a => a.array.get []) = .ok y)) := by
  have hany : ((args.map Arg.array).any fun a => a.shape.any (· == 0)) = true ↔ ∃ a ∈ args, 0 ∈ a.array.shape := by
    simp [List.any_eq_true]
  constructor
  · intro h
    unfold vectorize npVectorize
    simp only [hany.2 h, if_true, finish]
  · intro h0 hk
    have hno : ((args.map Arg.array).any fun a => a.shape.any (· == 0)) = false := by
      rw [← Bool.not_eq_true, hany]
      rintro ⟨a, ha, h⟩
      exact h0 a ha h
    have hv : vectorize k none f args = match f ((args.map Arg.array).map fun a => a.get (a.shape.map fun _ => 0)) with
        | .error e => Except.error e
        | .ok _ => finish (ufunc f (args.map Arg.array)) := by
      unfold vectorize npVectorize
      simp only [hno, Bool.false_eq_true, if_false]
      cases hf : f ((args.map Arg.array).map fun a => a.get (a.shape.map fun _ => 0)) with
      | error e => rfl
      | ok y =>
        simp only
        have : (fun xs => (f xs).map (k.conv (k.kind y))) = f := by
          funext xs
          cases hx : f xs with
          | error e => rfl
          | ok z => simp only [Except.map, hk _ _ y z hf hx]
        rw [this]
    -- the function succeeds for the first elements if it does for all
    have hfirst : ∀ o, Elementwise f (args.map Arg.array) o → ∃ y, f ((args.map Arg.array).map fun a => a.get (a.shape.map fun _ => 0)) = .ok y := by
      rintro ⟨s, d⟩ ⟨hb, hd⟩
      simp only at hb hd
      have hpos : ∀ x ∈ s, 0 < x := by
        intro x hx
        obtain ⟨k, hk, rfl⟩ := List.getElem_of_mem (List.mem_reverse.2 hx)
        obtain ⟨-, q, hq, hq'⟩ := hb.2 k _ (List.getElem?_eq_getElem hk)
        obtain ⟨a, ha, rfl⟩ := List.mem_map.1 hq
        obtain ⟨b, hb', rfl⟩ := List.mem_map.1 ha
        rcases Nat.eq_zero_or_pos s.reverse[k] with h | h
        · rw [h] at hq'
          exact absurd (List.mem_reverse.1 (List.mem_of_getElem? hq')) (h0 b hb')
        · exact h
      have hz : Inside (s.map fun _ => 0) s := by
        unfold Inside
        rw [List.forall₂_map_left_iff, List.forall₂_same]
        exact hpos
      have hmem := (mem_indices s _).2 hz
      obtain ⟨n, hn, he⟩ := List.getElem_of_mem hmem
      have hn' : n < d.length := by rw [← hd.length_eq]; exact hn
      have hx := hd.get hn hn'
      simp only [List.get_eq_getElem, he] at hx
      refine ⟨d[n], ?_⟩
      rw [← picked f _ s _ _ hb hz] at hx
      rw [← hx]
      congr 1
      apply List.map_congr_left
      intro a ha
      congr 1
      unfold sub
      have hl := hb.1 _ (List.mem_map_of_mem (f := (·.shape)) ha)
      apply List.ext_getElem
      · simp; omega
      · intro j h1 h2
        simp
    refine ⟨fun o => ?_, fun y => ?_⟩
    · rw [hv]
      constructor
      · intro h
        split at h
        · cases h
        · exact (res_arr f _ o).1 h
      · intro h
        obtain ⟨y, hy⟩ := hfirst o h.2
        rw [hy]
        exact (res_arr f _ o).2 h
    · rw [hv]
      constructor
      · intro h
        split at h
        · cases h
        · simpa [List.forall_mem_map, Function.comp_def] using (res_one f _ y).1 h
      · intro h
        have hone := (res_one f (args.map Arg.array) y).2 (by simpa [List.forall_mem_map, Function.comp_def] using h)
        obtain ⟨z, hz⟩ := hfirst ⟨[], [y]⟩ ((ufunc_ok _ _ _).1 ((ufunc_nil f _ y).2 (by simpa [List.forall_mem_map, Function.comp_def] using h)))
        rw [hz]
        exact hone

/-! ### `scalarize` and `listize` -/

/-- What `scalarize` hands to the function. -/
def boxed : Arg α → Arr α
  | .one x => ⟨[1], fun _ => x⟩
  | .seq a | .arr a => a

def isOneB : Arg α → Bool
  | .one _ => true
  | _ => false

theorem makeArray_ok (a : Arg α) (h : a.isOne ∨ a.array.shape ≠ []) :
    makeArray a = .ok (boxed a, isOneB a, !isOneB a && a.array.shape.head? == some 0) := by
  cases a with
  | one x => rfl
  | seq a | arr a =>
    obtain ⟨s, g⟩ := a
    cases s with
    | nil => exact absurd rfl (h.resolve_left (fun h => h))
    | cons n s =>
      simp [makeArray, boxed, isOneB, Arg.array]

theorem makeArrays_ok (args : List (Arg α)) (h : ∀ a ∈ args, a.isOne ∨ a.array.shape ≠ []) :
    eachOf makeArray args = .ok (args.map fun a => (boxed a, isOneB a, !isOneB a && a.array.shape.head? == some 0)) := by
  rw [eachOf_ok, List.forall₂_map_right_iff, List.forall₂_same]
  exact fun a ha => makeArray_ok a (h a ha)

theorem axis_one (k : Nat) (d : Nat) : axis [1] k = some d ↔ k = 0 ∧ d = 1 := by
  unfold axis
  cases k <;> simp [eq_comm]

/-- Numbers may count as arrays with one element, if there is an array. -/
theorem broadcast_boxed (args : List (Arg α)) (t : List Nat) (ha : ∃ a ∈ args, ¬ a.isOne ∧ a.array.shape ≠ []) :
    Broadcast (args.map fun a => (boxed a).shape) t ↔ Broadcast (args.map fun a => a.array.shape) t := by
  obtain ⟨b, hb, hb1, hb2⟩ := ha
  have hbox : ∀ a : Arg α, ¬ a.isOne → boxed a = a.array := by
    intro a h
    cases a with
    | one x => exact absurd trivial h
    | seq a => rfl
    | arr a => rfl
  have hpos : 0 < b.array.shape.length := List.length_pos_iff.2 hb2
  unfold Broadcast
  simp only [List.mem_map, exists_exists_and_eq_and, forall_exists_index, and_imp, forall_apply_eq_imp_iff₂]
  constructor
  · rintro ⟨h1, h2⟩
    refine ⟨fun a ha => ?_, fun k d hk => ⟨fun a ha e he => ?_, ?_⟩⟩
    · by_cases ho : a.isOne
      · cases a with
        | one x => simp [Arg.array]
        | seq a => cases ho
        | arr a => cases ho
      · rw [← hbox a ho]
        exact h1 a ha
    · by_cases ho : a.isOne
      · cases a with
        | one x => simp [Arg.array, axis] at he
        | seq a => cases ho
        | arr a => cases ho
      · exact (h2 k d hk).1 a ha e (by rw [hbox a ho]; exact he)
    · obtain ⟨h3, a, ha, hd⟩ := h2 k d hk
      by_cases ho : a.isOne
      · cases a with
        | one x =>
          obtain ⟨rfl, rfl⟩ := (axis_one k d).1 hd
          refine ⟨b, hb, ?_⟩
          have hlt : 0 < b.array.shape.reverse.length := by simpa using hpos
          have he : axis b.array.shape 0 = some b.array.shape.reverse[0] := List.getElem?_eq_getElem hlt
          have := h3 b hb _ (by rw [hbox b hb1]; exact he)
          rw [he]
          congr 1
          omega
        | seq a => cases ho
        | arr a => cases ho
      · exact ⟨a, ha, by rw [← hbox a ho]; exact hd⟩
  · rintro ⟨h1, h2⟩
    refine ⟨fun a ha => ?_, fun k d hk => ⟨fun a ha e he => ?_, ?_⟩⟩
    · by_cases ho : a.isOne
      · cases a with
        | one x =>
          have := h1 b hb
          simp only [boxed, List.length_singleton]
          omega
        | seq a => cases ho
        | arr a => cases ho
      · rw [hbox a ho]
        exact h1 a ha
    · by_cases ho : a.isOne
      · cases a with
        | one x => exact .inl ((axis_one k e).1 he).2
        | seq a => cases ho
        | arr a => cases ho
      · exact (h2 k d hk).1 a ha e (by rw [← hbox a ho]; exact he)
    · obtain ⟨h3, a, ha, hd⟩ := h2 k d hk
      by_cases ho : a.isOne
      · cases a with
        | one x => simp [Arg.array, axis] at hd
        | seq a => cases ho
        | arr a => cases ho
      · exact ⟨a, ha, by rw [hbox a ho]; exact hd⟩

theorem bshape_congr (l l' : List (List Nat)) (h : ∀ t, Broadcast l t ↔ Broadcast l' t) : bshape l = bshape l' := by
  cases h1 : bshape l with
  | none =>
    cases h2 : bshape l' with
    | none => rfl
    | some t =>
      rw [bshape_some, ← h, ← bshape_some, h1] at h2
      cases h2
  | some t =>
    rw [bshape_some, h, ← bshape_some] at h1
    exact h1.symm

theorem ufunc_boxed (f : List α → Except PyErr β) (args : List (Arg α)) (ha : ∃ a ∈ args, ¬ a.isOne ∧ a.array.shape ≠ []) :
    ufunc f (args.map boxed) = ufunc f (args.map Arg.array) := by
  unfold ufunc
  simp only [List.map_map, Function.comp_def]
  rw [bshape_congr _ _ fun t => broadcast_boxed args t ha]
  have : ∀ i, (args.map fun a => (boxed a).get (sub (boxed a).shape i)) = args.map fun a => a.array.get (sub a.array.shape i) := by
    intro i
    apply List.map_congr_left
    intro a _
    cases a <;> rfl
  simp only [this]

/-- **C127** (`scalarize`). Let a function be elementwise on arrays. If no argument is an array without axes, and not all have a first axis of
length zero, then the decorated function gives an array exactly if there is an array or a sequence among the arguments and the result is
elementwise, and a number exactly if there are only numbers and it is that for these. -/
theorem C127_scalarize_partial (f : List α → Except PyErr β) (args : List (Arg α)) (hne : args ≠ [])
    (hax : ∀ a ∈ args, a.isOne ∨ a.array.shape ≠ []) (hlen : ∃ a ∈ args, a.array.shape.head? ≠ some 0) :
    (∀ o, scalarize (ufunc f) args = .ok (.arr o) ↔ (∃ a ∈ args, ¬ a.isOne) ∧ Elementwise f (args.map Arg.array) o) ∧
    (∀ y, scalarize (ufunc f) args = .ok (.one y) ↔ (∀ a ∈ args, a.isOne) ∧ f (args.map fun a => a.array.get []) = .ok y) := by
  have hone : ∀ a : Arg α, isOneB a = true ↔ a.isOne := by intro a; cases a <;> simp [isOneB, Arg.isOne]
  have hs : scalarize (ufunc f) args = match ufunc f (args.map boxed) with
      | .error e => Except.error e
      | .ok r => if args.all isOneB then
          match r.data with
          | y :: _ => .ok (Res.one y)
          | [] => .error .indexError
        else .ok (.arr r) := by
    unfold scalarize
    cases args with
    | nil => exact absurd rfl hne
    | cons a l =>
      simp only
      rw [makeArrays_ok _ hax]
      simp only [List.map_map, List.all_map, Function.comp_def]
      have hneg : ¬ (((a :: l).all fun x => !isOneB x && x.array.shape.head? == some 0) = true) := by
        simp only [List.all_eq_true, Bool.and_eq_true, beq_iff_eq]
        intro h
        obtain ⟨b, hb, hb'⟩ := hlen
        exact hb' (h b hb).2
      rw [if_neg hneg]
      cases ufunc f (List.map boxed (a :: l)) <;> rfl
  by_cases hall : ∀ a ∈ args, a.isOne
  · have hall' : args.all isOneB = true := List.all_eq_true.2 fun a ha => (hone a).2 (hall a ha)
    have hu : ufunc f (args.map boxed) = match f (args.map fun a => a.array.get []) with
        | .error e => .error e
        | .ok y => .ok ⟨[1], [y]⟩ := by
      unfold ufunc
      have hb : bshape ((args.map boxed).map (·.shape)) = some [1] := by
        rw [bshape_some]
        have hsh : ∀ s ∈ (args.map boxed).map (·.shape), s = [1] := by
          intro s hs
          obtain ⟨a, ha, rfl⟩ := List.mem_map.1 hs
          obtain ⟨a, ha', rfl⟩ := List.mem_map.1 ha
          have := hall a ha'
          cases a with
          | one x => rfl
          | seq a => cases this
          | arr a => cases this
        obtain ⟨a, ha⟩ := List.exists_mem_of_ne_nil args hne
        have hm : (boxed a).shape ∈ (args.map boxed).map (·.shape) := List.mem_map_of_mem (f := fun x : Arr α => x.shape) (List.mem_map_of_mem ha)
        refine ⟨fun s hs => by rw [hsh s hs]; exact Nat.le_refl _, fun k d hd => ⟨fun s hs e he => ?_, ⟨_, hm, by rw [hsh _ hm]; exact hd⟩⟩⟩
        rw [hsh s hs] at he
        exact .inl ((axis_one k e).1 he).2
      rw [hb]
      have hm : ∀ i, ((args.map boxed).map fun a => a.get (sub a.shape i)) = args.map fun a => a.array.get [] := by
        intro i
        rw [List.map_map]
        apply List.map_congr_left
        intro a ha
        have := hall a ha
        cases a with
        | one x => rfl
        | seq a => cases this
        | arr a => cases this
      have hi : indices [1] = [[0]] := by decide
      simp only [hi, eachOf, hm]
      cases f (args.map fun a => a.array.get []) <;> rfl
    rw [hs, hu]
    cases f (args.map fun a => a.array.get []) with
    | error e => exact ⟨fun o => by simp; exact fun a ha h => absurd (hall a ha) h, fun y => by simp⟩
    | ok z =>
      simp only [hall', if_true, Except.ok.injEq, Res.one.injEq, reduceCtorEq, false_iff]
      refine ⟨?_, fun y => ⟨fun h => ⟨hall, h⟩, fun h => h.2⟩⟩
      rintro o ⟨⟨a, ha, h⟩, -⟩
      exact h (hall a ha)
  · have hex : ∃ a ∈ args, ¬ a.isOne := by
      by_contra hc
      exact hall fun a ha => by
        by_contra h
        exact hc ⟨a, ha, h⟩
    have hall' : args.all isOneB = false := by
      rw [← Bool.not_eq_true, List.all_eq_true]
      exact fun h => hall fun a ha => (hone a).1 (h a ha)
    have hex' : ∃ a ∈ args, ¬ a.isOne ∧ a.array.shape ≠ [] := by
      obtain ⟨a, ha, h⟩ := hex
      exact ⟨a, ha, h, (hax a ha).resolve_left h⟩
    rw [hs, ufunc_boxed f args hex']
    simp only [hall', Bool.false_eq_true, if_false]
    have hu := ufunc_ok f (args.map Arg.array)
    cases h : ufunc f (args.map Arg.array) with
    | error e =>
      refine ⟨fun o => ?_, fun y => by simp [hall]⟩
      rw [← hu o, h]
      simp
    | ok r =>
      refine ⟨fun o => ?_, fun y => by simp [hall]⟩
      rw [← hu o, h]
      simp only [Except.ok.injEq, Res.arr.injEq]
      exact ⟨fun h => ⟨hex, h⟩, fun h => h.2⟩

/-- **C127** (`scalarize`, no elements). For arguments that are all arrays or sequences with one axis and no elements the function is not called, and
the result is one of them. -/
theorem C127_empty (f : List α → Except PyErr β) (func : List (Arr α) → Except PyErr (Out β)) (args : List (Arg α)) (hne : args ≠ [])
    (h : ∀ a ∈ args, a.array.shape = [0]) :
    scalarize func args = .ok (.arr ⟨[0], []⟩) ∧ Elementwise f (args.map Arg.array) ⟨[0], []⟩ := by
  constructor
  · unfold scalarize
    cases args with
    | nil => exact absurd rfl hne
    | cons a l =>
      simp only
      rw [makeArrays_ok _ fun a ha => .inr (by rw [h a ha]; simp)]
      simp only
      rw [if_pos]
      simp only [List.all_map, List.all_eq_true, Function.comp_apply, Bool.and_eq_true, beq_iff_eq, Bool.not_eq_true']
      intro b hb
      have := h b hb
      cases b with
      | one x => cases this
      | seq a => exact ⟨rfl, by rw [this]; rfl⟩
      | arr a => exact ⟨rfl, by rw [this]; rfl⟩
  · refine ⟨?_, ?_⟩
    · have hsh : ∀ s ∈ (args.map Arg.array).map (·.shape), s = [0] := by
        intro s hs
        obtain ⟨a, ha, rfl⟩ := List.mem_map.1 hs
        obtain ⟨a, ha', rfl⟩ := List.mem_map.1 ha
        exact h a ha'
      obtain ⟨a, ha⟩ := List.exists_mem_of_ne_nil args hne
      have hm : a.array.shape ∈ (args.map Arg.array).map (·.shape) := List.mem_map_of_mem (f := fun x : Arr α => x.shape) (List.mem_map_of_mem ha)
      refine ⟨fun s hs => by rw [hsh s hs]; exact Nat.le_refl _, fun k d hd => ⟨fun s hs e he => ?_, ⟨_, hm, by rw [hsh _ hm]; exact hd⟩⟩⟩
      rw [hsh s hs] at he
      rw [he] at hd
      exact .inr (Option.some.inj hd)
    · exact .nil

/-- **C127** (`listize`). If a function is right for numbers and arrays, whatever right means, then the decorated function is also for
sequences, which count as the arrays made of them. -/
theorem C127_listize (func : List (Arg α) → Except PyErr (Res β)) (right : List (Bool × Arr α) → Except PyErr (Res β))
    (h : ∀ args : List (Arg α), (∀ a ∈ args, ∀ x, a ≠ .seq x) → func args = right (args.map fun a => (isOneB a, a.array)))
    (args : List (Arg α)) : listize func args = right (args.map fun a => (isOneB a, a.array)) := by
  unfold listize
  rw [h]
  · rw [List.map_map]
    congr 1
    apply List.map_congr_left
    intro a _
    cases a <;> rfl
  · intro a ha x e
    obtain ⟨b, -, rfl⟩ := List.mem_map.1 ha
    cases b <;> cases e

/-! ### A case -/

/-- A sum; numbers are whole or halves. -/
def addAll (xs : List Nat) : Except PyErr Nat := if 9 ∈ xs then .error (.user 1) else .ok xs.sum

def noKinds : Kinds Nat Unit := ⟨fun _ => (), fun _ y => y⟩

/-- A column and a row. -/
def column : Arr Nat := ⟨[2, 1], fun i => (i.head?.getD 0) * 10⟩
def row : Arr Nat := ⟨[3], fun i => i.head?.getD 0⟩

example : vectorize noKinds (some ()) addAll [.arr column, .seq row, .one 100] =
    .ok (.arr ⟨[2, 3], [100, 101, 102, 110, 111, 112]⟩) := by rfl

example : vectorize noKinds (some ()) addAll [.one 1, .one 2] = .ok (.one 3) := by rfl

example : scalarize (ufunc addAll) [.arr column, .seq row, .one 100] = .ok (.arr ⟨[2, 3], [100, 101, 102, 110, 111, 112]⟩) := by rfl

example : vectorize noKinds (some ()) addAll [.arr row, .arr ⟨[2], fun _ => 0⟩] = .error .valueError := by rfl

example : vectorize noKinds none addAll [.arr row, .one 9] = .error (.user 1) := by rfl

/-! ### Where the property fails -/

/-- Whole numbers and halves, as numbers of halves; the type says whether halves are kept. -/
def halves : Kinds Nat Bool := ⟨fun y => y % 2 == 1, fun t y => if t then y else y / 2 * 2⟩

/-- **C127 fails** for `vectorize` without `otypes`: the type of the first result is that of all, so that the half of `[0, 1]` (and of any
list that starts with an even number) has no halves; on the number alone the function is right. -/
theorem C127_first_violated :
    vectorize halves none (fun xs => .ok xs.sum) [.seq ⟨[2], fun i => i.head?.getD 0⟩] = .ok (.arr ⟨[2], [0, 0]⟩) ∧
    vectorize halves none (fun xs => .ok xs.sum) [.one 1] = .ok (.one 1) := ⟨rfl, rfl⟩

/-- **C127 fails** for `scalarize` and arrays without axes, which are refused, whatever the function and the other arguments. -/
theorem C127_no_axes_violated (func : List (Arr α) → Except PyErr (Out β)) (g : List Nat → α) (l : List (Arg α)) :
    scalarize func (.arr ⟨[], g⟩ :: l) = .error .typeError := rfl

/-- **C127 fails** for `scalarize` and arrays without elements that have more axes: the result has one axis. It is not elementwise. -/
theorem C127_empty_violated (f : List α → Except PyErr β) (g : List Nat → α) (n : Nat) :
    scalarize (ufunc f) [.arr ⟨[0, n], g⟩] = .ok (.arr ⟨[0], []⟩) ∧ ¬ Elementwise f [⟨[0, n], g⟩] ⟨[0], []⟩ := by
  refine ⟨rfl, ?_⟩
  rintro ⟨h, -⟩
  have := h.1 [0, n] (by simp)
  simp at this

/-- **C127 fails** for calls without positional arguments, which `scalarize` refuses. -/
theorem C127_keywords_violated (func : List (Arr α) → Except PyErr (Out β)) : scalarize func [] = .error .valueError := rfl

end Verif.Deco
