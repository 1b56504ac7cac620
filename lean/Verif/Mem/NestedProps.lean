import Verif.Mem.Nested
import Verif.Mem.AttrsProps

/-!
# C33: nested lists in HDF5 attributes

`Rect s p v`: `v` is a nested list of the shape `s` all of whose items satisfy `p`.
-/
namespace Verif.Mem.Attrs
variable {φ : Type}

/-- A nested list of a shape. -/
def Rect (p : Val φ → Prop) : List Nat → Val φ → Prop
  | [], v => p v
  | n :: s, v => ∃ l : List (Val φ), v = .list (Vals.ofList l) ∧ l.length = n ∧ ∀ x ∈ l, Rect p s x

theorem npShapes_ofList (s : List Nat) : ∀ l : List (Val φ), (∀ x ∈ l, npShape x = some s) →
    npShapes (Vals.ofList l) = some (List.replicate l.length s)
  | [], _ => by rw [Vals.ofList, npShapes]; rfl
  | x :: l, h => by
    rw [Vals.ofList, npShapes, h x List.mem_cons_self,
      npShapes_ofList s l fun y hy => h y (List.mem_cons_of_mem _ hy)]
    rfl

theorem flats_ofList : ∀ l : List (Val φ), flats (Vals.ofList l) = l.flatMap flat
  | [] => by rw [Vals.ofList, flats]; rfl
  | x :: l => by rw [Vals.ofList, flats, flats_ofList l]; rfl

theorem flatMap_blocks {β γ : Type} (f : β → List γ) (c : Nat) : ∀ (l : List β), (∀ x ∈ l, (f x).length = c) →
    ∀ (i : Nat) (hi : i < l.length), ((l.flatMap f).drop (i * c)).take c = f l[i]
  | [], _, i, hi => absurd hi (Nat.not_lt_zero _)
  | x :: l, h, 0, _ => by
    rw [List.flatMap_cons, Nat.zero_mul, List.drop_zero]
    have := h x List.mem_cons_self
    rw [← this, List.take_left]
    rfl
  | x :: l, h, i + 1, hi => by
    have hx := h x List.mem_cons_self
    rw [List.flatMap_cons, Nat.succ_mul, Nat.add_comm, ← List.drop_drop]
    rw [show List.drop c (f x ++ l.flatMap f) = l.flatMap f by rw [← hx, List.drop_left]]
    exact flatMap_blocks f c l (fun y hy => h y (List.mem_cons_of_mem _ hy)) i (by simpa using hi)

theorem rect_flat {p : Val φ → Prop} (hp : ∀ v, p v → flat v = [v] ∧ npShape v = some []) :
    ∀ (s : List Nat) (v : Val φ), (∀ n ∈ s, n ≠ 0) → Rect p s v →
      npShape v = some s ∧ (flat v).length = count s ∧ (∀ x ∈ flat v, p x) ∧
      NdArr.nest s (flat v) = v
  | [], v, _, h => by
    obtain ⟨h1, h2⟩ := hp v h
    rw [h1]
    exact ⟨h2, rfl, fun x hx => by rw [List.mem_singleton.1 hx]; exact h, rfl⟩
  | n :: s, v, hs, ⟨l, hv, hl, hr⟩ => by
    subst hv
    have ih : ∀ x ∈ l, _ := fun x hx =>
      rect_flat hp s x (fun m hm => hs m (List.mem_cons_of_mem _ hm)) (hr x hx)
    have hn : n ≠ 0 := hs n List.mem_cons_self
    have hsh := npShapes_ofList s l fun x hx => (ih x hx).1
    have hlen : ∀ x ∈ l, (flat x).length = count s := fun x hx => (ih x hx).2.1
    refine ⟨?_, ?_, ?_, ?_⟩
    · rw [npShape, hsh, hl]
      cases n with
      | zero => exact absurd rfl hn
      | succ n => simp [List.replicate_succ]
    · rw [flat, flats_ofList, List.length_flatMap, count, ← hl]
      have : l.map (fun x => (flat x).length) = List.replicate l.length (count s) := by
        rw [List.eq_replicate_iff]
        refine ⟨by simp, ?_⟩
        intro b hb
        obtain ⟨x, hx, rfl⟩ := List.mem_map.1 hb
        exact hlen x hx
      rw [this, List.sum_replicate_nat]
    · intro x hx
      rw [flat, flats_ofList, List.mem_flatMap] at hx
      obtain ⟨y, hy, hxy⟩ := hx
      exact (ih y hy).2.2.1 x hxy
    · rw [NdArr.nest, flat, flats_ofList]
      congr 2
      apply List.ext_getElem
      · simp [hl]
      · intro i h1 h2
        rw [List.getElem_map, List.getElem_range, flatMap_blocks flat (count s) l hlen i h2]
        exact (ih _ (List.getElem_mem h2)).2.2.2

/-- An integer that numpy can hold. -/
def IsInt (v : Val φ) : Prop := ∃ i : Int, v = .int i ∧ -(2 ^ 63) ≤ i ∧ i < 2 ^ 64
def IsFloat (v : Val φ) : Prop := ∃ f : φ, v = .float f
def IsStr (v : Val φ) : Prop := ∃ t : Str, v = .str t

theorem all_of {β : Type} (f : β → Val φ) (q : β → Prop) : ∀ l : List (Val φ), (∀ x ∈ l, ∃ b, x = f b ∧ q b) →
    ∃ bs : List β, l = bs.map f ∧ ∀ b ∈ bs, q b
  | [], _ => ⟨[], rfl, by simp⟩
  | x :: l, h => by
    obtain ⟨b, hb, hq⟩ := h x List.mem_cons_self
    obtain ⟨bs, hbs, hqs⟩ := all_of f q l fun y hy => h y (List.mem_cons_of_mem _ hy)
    refine ⟨b :: bs, by rw [hb, hbs]; rfl, fun c hc => ?_⟩
    rcases List.mem_cons.1 hc with rfl | hc
    · exact hq
    · exact hqs c hc

theorem mapM_map_some {β γ δ : Type} (f : β → γ) (g : γ → Option δ) (k : β → δ) : ∀ l : List β,
    (∀ b ∈ l, g (f b) = some (k b)) → (l.map f).mapM g = some (l.map k)
  | [], _ => rfl
  | b :: l, h => by
    rw [List.map_cons, List.mapM_cons, h b List.mem_cons_self,
      mapM_map_some f g k l fun c hc => h c (List.mem_cons_of_mem _ hc)]
    rfl

theorem count_pos : ∀ s : List Nat, (∀ n ∈ s, n ≠ 0) → 0 < count s
  | [], _ => Nat.one_pos
  | n :: s, h => Nat.mul_pos (Nat.pos_of_ne_zero (h n List.mem_cons_self))
      (count_pos s fun m hm => h m (List.mem_cons_of_mem _ hm))

theorem npElems_ints (L : Lib φ) (l : List (Val φ)) (hne : l ≠ []) (h : ∀ x ∈ l, IsInt x) :
    ∃ es, npElems L l = .ok es ∧ es.toVals = l := by
  obtain ⟨is, rfl, hq⟩ := all_of (fun i : Int => (.int i : Val φ)) (fun i => -(2 ^ 63) ≤ i ∧ i < 2 ^ 64) l
    (fun x hx => by obtain ⟨i, hi, a, b⟩ := h x hx; exact ⟨i, hi, a, b⟩)
  have hm : (is.map (fun i : Int => (.int i : Val φ))).mapM asInt = some is := by
    rw [mapM_map_some _ _ id is fun i hi => ?_, List.map_id]
    have : fits i = true := by
      have := hq i hi
      simp only [fits, Bool.and_eq_true, decide_eq_true_eq]
      exact this
    simp [asInt, this]
  have hne' : (is.map (fun i : Int => (.int i : Val φ))).isEmpty = false := by
    cases is with
    | nil => exact absurd rfl hne
    | cons a l => rfl
  refine ⟨.ints is, ?_, rfl⟩
  unfold npElems npArray
  rw [hne', hm]
  rfl

theorem npElems_floats (L : Lib φ) (l : List (Val φ)) (hne : l ≠ []) (h : ∀ x ∈ l, IsFloat x) :
    ∃ es, npElems L l = .ok es ∧ es.toVals = l := by
  obtain ⟨fs, rfl, _⟩ := all_of (fun f : φ => (.float f : Val φ)) (fun _ => True) l
    (fun x hx => by obtain ⟨i, hi⟩ := h x hx; exact ⟨i, hi, trivial⟩)
  have hm : (fs.map (fun f : φ => (.float f : Val φ))).mapM (asFloat L) = some fs := by
    have := mapM_map_some (fun f : φ => (.float f : Val φ)) (asFloat L) id fs fun i hi => rfl
    rwa [List.map_id] at this
  refine ⟨.floats fs, ?_, rfl⟩
  cases fs with
  | nil => exact absurd rfl hne
  | cons a fs =>
    have h1 : ((a :: fs).map (fun f : φ => (.float f : Val φ))).mapM asInt = Option.none := by
      rw [List.map_cons, List.mapM_cons]; rfl
    unfold npElems npArray
    rw [hm, h1]
    rfl

theorem npElems_strs (L : Lib φ) (l : List (Val φ)) (hne : l ≠ []) (h : ∀ x ∈ l, IsStr x) :
    ∃ es, npElems L l = .ok es ∧ es.toVals = l := by
  obtain ⟨fs, rfl, _⟩ := all_of (fun f : Str => (.str f : Val φ)) (fun _ => True) l
    (fun x hx => by obtain ⟨i, hi⟩ := h x hx; exact ⟨i, hi, trivial⟩)
  have hm : (fs.map (fun f : Str => (.str f : Val φ))).mapM (asStr L) = some fs := by
    have := mapM_map_some (fun f : Str => (.str f : Val φ)) (asStr L) id fs fun i hi => rfl
    rwa [List.map_id] at this
  refine ⟨.strs fs, ?_, rfl⟩
  cases fs with
  | nil => exact absurd rfl hne
  | cons a fs =>
    have h1 : ((a :: fs).map (fun f : Str => (.str f : Val φ))).mapM asInt = Option.none := by
      rw [List.map_cons, List.mapM_cons]; rfl
    have h2 : ((a :: fs).map (fun f : Str => (.str f : Val φ))).mapM (asFloat L) = Option.none := by
      rw [List.map_cons, List.mapM_cons]; rfl
    unfold npElems npArray
    rw [hm, h1, h2]
    rfl

/-- **C33.** A nested list, of any depth, whose parts on each level have the same lengths (not zero) and whose
items are all integers in range, all floats, or all strings, comes back from an HDF5 file as the array of
this shape, which has the same items in the same places. Missing: other nested lists
(`C33_ragged_violated`). -/
theorem C33_nested_partial (L : Lib φ) (s : List Nat) (hs : ∀ n ∈ s, n ≠ 0) (l : Vals φ)
    (h : Rect IsInt s (.list l) ∨ Rect IsFloat s (.list l) ∨ Rect IsStr s (.list l)) :
    ∃ a, roundTripNested L l = .ok a ∧ a.shape = s ∧ NdArr.nest a.shape a.elems.toVals = .list l := by
  have key : ∀ p : Val φ → Prop, (∀ v, p v → flat v = [v] ∧ npShape v = some []) →
      (∀ l : List (Val φ), l ≠ [] → (∀ x ∈ l, p x) → ∃ es, npElems L l = .ok es ∧ es.toVals = l) →
      Rect p s (.list l) →
      ∃ a, roundTripNested L l = .ok a ∧ a.shape = s ∧ NdArr.nest a.shape a.elems.toVals = .list l := by
    intro p hp he hr
    obtain ⟨h1, h2, h3, h4⟩ := rect_flat hp s _ hs hr
    have hne : flat (.list l) ≠ [] := by
      intro hcon
      rw [hcon] at h2
      have := count_pos s hs
      simp only [List.length_nil] at h2
      omega
    obtain ⟨es, e1, e2⟩ := he _ hne h3
    refine ⟨⟨s, es⟩, ?_, rfl, by rw [e2]; exact h4⟩
    unfold roundTripNested npNested
    rw [h1, e1]
  rcases h with h | h | h
  · exact key IsInt (by rintro v ⟨i, rfl, _⟩; exact ⟨by rw [flat]; simp, by rw [npShape]; simp⟩) (npElems_ints L) h
  · exact key IsFloat (by rintro v ⟨i, rfl⟩; exact ⟨by rw [flat]; simp, by rw [npShape]; simp⟩) (npElems_floats L) h
  · exact key IsStr (by rintro v ⟨i, rfl⟩; exact ⟨by rw [flat]; simp, by rw [npShape]; simp⟩) (npElems_strs L) h

/-- `[[1, 2, 3], [4, 5, 6]]`. -/
example : Rect (IsInt (φ := Nat)) [2, 3] (.list (Vals.ofList [.list (Vals.ofList [.int 1, .int 2, .int 3]),
    .list (Vals.ofList [.int 4, .int 5, .int 6])])) := by
  refine ⟨_, rfl, rfl, ?_⟩
  intro x hx
  rcases List.mem_cons.1 hx with rfl | hx
  · refine ⟨_, rfl, rfl, ?_⟩
    intro y hy
    simp only [List.mem_cons, List.not_mem_nil, or_false] at hy
    rcases hy with rfl | rfl | rfl <;> exact ⟨_, rfl, by omega, by omega⟩
  · rcases List.mem_singleton.1 hx with rfl
    refine ⟨_, rfl, rfl, ?_⟩
    intro y hy
    simp only [List.mem_cons, List.not_mem_nil, or_false] at hy
    rcases hy with rfl | rfl | rfl <;> exact ⟨_, rfl, by omega, by omega⟩

/-- **C33 is violated** by lists whose parts have different lengths: an attribute that holds two lists of
numbers of different lengths, next to each other in the list, cannot be written to an HDF5 file at all. -/
theorem C33_ragged_violated (L : Lib φ) (xs ys : List Int) (h : xs.length ≠ ys.length) (rest : Vals φ) :
    roundTripNested L (.cons (.list (Vals.ofList (xs.map .int))) (.cons (.list (Vals.ofList (ys.map .int))) rest)) =
      .error .valueError := by
  have hsh : ∀ zs : List Int, npShape (.list (Vals.ofList (zs.map .int)) : Val φ) = some [zs.length] := by
    intro zs
    have : npShapes (Vals.ofList (zs.map .int) : Vals φ) = some (List.replicate (zs.map (Val.int (φ := φ))).length []) :=
      npShapes_ofList [] _ (fun x hx => by
        obtain ⟨i, _, rfl⟩ := List.mem_map.1 hx
        rw [npShape]
        simp)
    rw [npShape, this]
    cases zs with
    | nil => rfl
    | cons z zs => simp [List.replicate_succ]
  have : npShape (.list (.cons (.list (Vals.ofList (xs.map .int))) (.cons (.list (Vals.ofList (ys.map .int))) rest)) : Val φ) =
      Option.none := by
    rw [npShape, npShapes, npShapes, hsh, hsh]
    cases hr : npShapes rest with
    | none => rfl
    | some ss =>
      simp only
      rw [if_neg]
      simp only [List.all_cons, Bool.and_eq_true, not_and]
      intro he
      exact absurd (by simpa using he) (Ne.symm h)
  unfold roundTripNested npNested
  rw [this]

example : [1, 2].length ≠ [(3 : Int)].length := by decide

end Verif.Mem.Attrs
