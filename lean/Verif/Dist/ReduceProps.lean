import Verif.Dist.ReduceLemmas
import Verif.Dist.UfuncProps

/-!
# C62: reductions and accumulations of distributed arrays
-/
namespace Verif.Dist

open Verif.Mpi (blockStart blockLen)
open Verif.Reshape (InShape)

variable {α : Type}

/-- The `axis` arguments that list the axes `l`: a tuple, or a single integer. -/
def Lists (axis : AxisKw) (l : List Int) : Prop := axis = .tuple l ∨ ∃ x, l = [x] ∧ axis = .int x

theorem Lists.np {axis : AxisKw} {l : List Int} (h : Lists axis l) : axis.np = some l := by
  obtain rfl | ⟨x, rfl, rfl⟩ := h <;> rfl

theorem inferReduce_lists {axis : AxisKw} {l : List Int} (h : Lists axis l) (A : MArr α) (keep : Bool) :
    inferReduce A axis keep =
      (if A.axis ∈ axisSet A.arr.shape.length l then .error .axisException
      else (pyGet A.gshape A.axis >>= fun glen => pyGet A.loff A.axis >>= fun off =>
        pure (finalAxis A.arr.shape.length A.axis (axisSet A.arr.shape.length l) keep, glen, off))) := by
  obtain rfl | ⟨x, rfl, rfl⟩ := h <;> rfl

/-- The place of the distributed axis `a` after the axes `p` are reduced: as many axes before it as were
kept, or the same place if all are kept with length one. -/
def placeAfter (a : Nat) (p : List Nat) (keep : Bool) : Nat :=
  if keep then a else ((List.range a).filter fun k => decide (k ∉ p)).length

theorem inferReduce_ok (G : NArr α) (a : Nat) (c : Comm) (A : MArr α) (hA : IsBlock G a c A)
    {axis : AxisKw} {l : List Int} (hax : Lists axis l) (p : List Nat)
    (hp : List.Forall₂ (Names G.shape.length) l p) (keep : Bool) :
    inferReduce A axis keep = if a ∈ p then .error .axisException else
      .ok ((placeAfter a p keep : Nat), G.shape.getD a 0, blockStart (G.shape.getD a 0) c.size c.rank) := by
  have hAl : A.arr.shape.length = G.shape.length := by rw [hA.shape]; simp
  have hlt := hA.lt
  obtain ⟨e1, e2, e3⟩ := block_get hA
  rw [inferReduce_lists hax, hAl, axisSet_names _ _ _ hp, hA.axis]
  simp only [mem_cast]
  by_cases h : a ∈ p
  · rw [if_pos h, if_pos h]
  · rw [if_neg h, if_neg h, e1, e2, finalAxis_eq _ _ _ _ (by omega)]
    rfl

theorem axesMask_ok (n : Nat) (l : List Int) (p : List Nat) (hp : List.Forall₂ (Names n) l p) (hn : p.Nodup) :
    axesMask n (some l) = .ok ((List.range n).map fun (k : Nat) => decide (k ∈ p)) := by
  unfold axesMask
  simp only
  rw [(mapM_norm l p).2 hp]
  simp only
  rw [if_pos hn]

theorem npReduce_axes {u : Red α} {G : NArr α} {l : List Int} {keep : Bool} {R : NArr α}
    (hR : npReduce u G (some l) keep = .ok R) :
    ∃ p, List.Forall₂ (Names G.shape.length) l p ∧ p.Nodup := by
  unfold npReduce axesMask at hR
  simp only at hR
  cases h : l.mapM (normAxis G.shape.length) with
  | error e => rw [h] at hR; simp at hR
  | ok p =>
    rw [h] at hR
    simp only at hR
    by_cases hn : p.Nodup
    · exact ⟨p, (mapM_norm l p).1 h, hn⟩
    · rw [if_neg hn] at hR; simp at hR

/-- The local reduction and the block it is, without the records. -/
theorem reduce_data (u : Red α) (G : NArr α) (a : Nat) (c : Comm) (A : MArr α) (hA : IsBlock G a c A)
    (l : List Int) (p : List Nat) (hp : List.Forall₂ (Names G.shape.length) l p) (hn : p.Nodup) (ha : a ∉ p)
    (keep : Bool) (R : NArr α) (hR : npReduce u G (some l) keep = .ok R) :
    ∃ B, npReduce u A.arr (some l) keep = .ok B ∧
      B.shape = R.shape.set (placeAfter a p keep) (blockLen (G.shape.getD a 0) c.size c.rank) ∧
      R.shape[placeAfter a p keep]? = G.shape[a]? ∧
      ∀ j, InShape j B.shape →
        B.val j = R.val (j.modify (placeAfter a p keep) (· + blockStart (G.shape.getD a 0) c.size c.rank)) := by
  have hlt := hA.lt
  have hm := axesMask_ok _ l p hp hn
  have hg : ((List.range G.shape.length).map fun (k : Nat) => decide (k ∈ p))[a]? = some false := by
    rw [mask_get _ _ _ hlt]; simp [ha]
  obtain ⟨h1, rfl⟩ := npReduce_block u G a c A hA (some l) keep _ hm (by simp) hg R hR
  obtain ⟨h2, h3, h4⟩ := reduced_block u G a c A hA _ (by simp) hg keep (placeAfter a p keep)
    (by unfold placeAfter; rw [mask_falses _ _ _ (by omega)])
  exact ⟨_, h1, h2, h3, h4⟩

/-- C62. A reduction over axes that do not include the distributed one gives every process its block of
the reduced global array, distributed over the place that the distributed axis then has. The reduction,
the shape, the axes (in any spelling), `keepdims` and the process are arbitrary. -/
theorem C62_reduce_partial (u : Red α) (G : NArr α) (a : Nat) (c : Comm) (A : MArr α) (hA : IsBlock G a c A)
    (axis : AxisKw) (l : List Int) (hax : Lists axis l) (p : List Nat)
    (hp : List.Forall₂ (Names G.shape.length) l p) (ha : a ∉ p) (keep : Bool)
    (R : NArr α) (hR : npReduce u G (some l) keep = .ok R) :
    ∃ B, ufuncReduce u A axis keep none = .ok B ∧ IsBlock R (placeAfter a p keep) c B := by
  have hlt := hA.lt
  obtain ⟨p', hp', hn⟩ := npReduce_axes hR
  obtain rfl : p' = p := by
    have h1 := (mapM_norm l p').2 hp'
    rw [(mapM_norm l p).2 hp] at h1
    exact (Except.ok.inj h1).symm
  obtain ⟨B, h1, h2, h3, h4⟩ := reduce_data u G a c A hA l p' hp hn ha keep R hR
  have hb : placeAfter a p' keep < R.shape.length := by
    rw [List.getElem?_eq_getElem hlt] at h3
    exact (List.getElem?_eq_some_iff.1 h3).1
  have hN : R.shape.getD (placeAfter a p' keep) 0 = G.shape.getD a 0 := by
    rw [List.getD_eq_getElem?_getD, h3, ← List.getD_eq_getElem?_getD]
  unfold ufuncReduce
  rw [inferReduce_ok G a c A hA hax p' hp, if_neg ha, hax.np, h1]
  simp only [bind, Except.bind]
  unfold wrapResult
  rw [if_neg (by intro h; rw [h2] at h; simp at h; rw [h] at hb; simp at hb), hA.comm]
  have := viewFrom_block R (placeAfter a p' keep) c B hb hA.rank (by rw [hN]; exact h2) (by rw [hN]; exact h4)
  rwa [hN] at this

/-- C62, with `out`: a distributed array of the right global shape and axis is returned and holds the
block of the reduced global array. -/
theorem C62_out_partial (u : Red α) (G : NArr α) (a : Nat) (c : Comm) (A : MArr α) (hA : IsBlock G a c A)
    (axis : AxisKw) (l : List Int) (hax : Lists axis l) (p : List Nat)
    (hp : List.Forall₂ (Names G.shape.length) l p) (ha : a ∉ p) (keep : Bool)
    (R : NArr α) (hR : npReduce u G (some l) keep = .ok R) (O : MArr α) (GO : NArr α)
    (hO : IsBlock GO (placeAfter a p keep) c O) (hs : GO.shape = R.shape) :
    ∃ B, ufuncReduce u A axis keep (some (.mpi O)) = .ok B ∧ IsBlock R (placeAfter a p keep) c B := by
  have hlt := hA.lt
  obtain ⟨p', hp', hn⟩ := npReduce_axes hR
  obtain rfl : p' = p := by
    have h1 := (mapM_norm l p').2 hp'
    rw [(mapM_norm l p).2 hp] at h1
    exact (Except.ok.inj h1).symm
  obtain ⟨B, h1, h2, h3, h4⟩ := reduce_data u G a c A hA l p' hp hn ha keep R hR
  have hb : placeAfter a p' keep < R.shape.length := by
    rw [List.getElem?_eq_getElem hlt] at h3
    exact (List.getElem?_eq_some_iff.1 h3).1
  have hN : R.shape.getD (placeAfter a p' keep) 0 = G.shape.getD a 0 := by
    rw [List.getD_eq_getElem?_getD, h3, ← List.getD_eq_getElem?_getD]
  have hOs : O.arr.shape = B.shape := by rw [hO.shape, hs, hN, h2]
  have hchk : checkOut ((placeAfter a p' keep : Nat) : Int) (G.shape.getD a 0)
      (blockStart (G.shape.getD a 0) c.size c.rank) A.comm (.mpi O) = .ok O := by
    unfold checkOut
    simp only
    rw [hA.comm, checkDist_comm _ _ _ _ hO.comm, (checkDist_iff hO _ _).2 ⟨rfl, by rw [hs, hN]⟩]
  refine ⟨{ O with arr := B }, ?_, ?_⟩
  · unfold ufuncReduce
    rw [inferReduce_ok G a c A hA hax p' hp, if_neg ha]
    simp only [bind, Except.bind]
    rw [hchk]
    simp only
    rw [hax.np, h1]
    simp only
    rw [if_pos hOs.symm]
    rfl
  · refine ⟨hb, hA.rank, hO.comm, hO.axis, by rw [hO.gshape, hs], by rw [hN]; exact h2, ?_, ?_, ?_⟩
    · simp only [hO.lshape, hOs]
    · simp only [hO.loff, hs]
    · intro i hi
      rw [hN]
      exact h4 i hi

/-- C62: a reduction over axes that include the distributed one, in any spelling, is refused. -/
theorem C62_distributed_axis (u : Red α) (G : NArr α) (a : Nat) (c : Comm) (A : MArr α) (hA : IsBlock G a c A)
    (axis : AxisKw) (l : List Int) (hax : Lists axis l) (p : List Nat)
    (hp : List.Forall₂ (Names G.shape.length) l p) (ha : a ∈ p) (keep : Bool) (out : Option (Out α)) :
    ufuncReduce u A axis keep out = .error .axisException := by
  unfold ufuncReduce
  rw [inferReduce_ok G a c A hA hax p hp, if_pos ha]
  rfl

/-- C62: which reductions over listed axes are accepted, when the function has an identity: those that
name some of the other axes, each once. -/
theorem C62_accepts (u : Red α) (hu : u.ident.isSome) (G : NArr α) (a : Nat) (c : Comm) (A : MArr α)
    (hA : IsBlock G a c A) (axis : AxisKw) (l : List Int) (hax : Lists axis l) (keep : Bool) :
    (∃ B, ufuncReduce u A axis keep none = .ok B) ↔
      ∃ p : List Nat, List.Forall₂ (Names G.shape.length) l p ∧ p.Nodup ∧ a ∉ p := by
  have hAl : A.arr.shape.length = G.shape.length := by rw [hA.shape]; simp
  constructor
  · rintro ⟨B, hB⟩
    have h0 : ∃ t, npReduce u A.arr (some l) keep = .ok t := by
      unfold ufuncReduce at hB
      simp only [bind, Except.bind, hax.np] at hB
      cases h1 : npReduce u A.arr (some l) keep with
      | ok t => exact ⟨t, rfl⟩
      | error e =>
        rw [h1] at hB
        cases hi : inferReduce A axis keep with
        | error e => rw [hi] at hB; simp at hB
        | ok v => rw [hi] at hB; simp at hB
    obtain ⟨t, ht⟩ := h0
    obtain ⟨p, hp, hn⟩ := npReduce_axes ht
    rw [hAl] at hp
    refine ⟨p, hp, hn, fun ha => ?_⟩
    rw [C62_distributed_axis u G a c A hA axis l hax p hp ha] at hB
    simp at hB
  · rintro ⟨p, hp, hn, ha⟩
    have hR : npReduce u G (some l) keep = .ok (reduced u G ((List.range G.shape.length).map fun (k : Nat) =>
        decide (k ∈ p)) keep) := by
      unfold npReduce
      rw [axesMask_ok _ l p hp hn]
      simp only
      rw [if_neg]
      rintro ⟨h1, -⟩
      cases hi : u.ident with
      | none => rw [hi] at hu; simp at hu
      | some x => rw [hi] at h1; simp at h1
    obtain ⟨B, h1, -⟩ := C62_reduce_partial u G a c A hA axis l hax p hp ha keep _ hR
    exact ⟨B, h1⟩

/-- The sum, as a reduction. -/
def sumRed : Red Nat := ⟨some 0, fun l => l.foldr (· + ·) 0⟩

/-- The largest value, which does not exist for no values. -/
def maxRed : Red Nat := ⟨none, fun l => l.foldr max 0⟩

/-- A global (4, 3) array of numbers, and the part of it on process `r` of 2, distributed over axis 0. -/
def ten43 : NArr Nat := ⟨[4, 3], fun i => 10 * i.getD 0 0 + i.getD 1 0⟩

/-- See `ten43`. -/
def ten43part (r : Nat) : MArr Nat :=
  { arr := ⟨[2, 3], fun i => 10 * (i.getD 0 0 + 2 * r) + i.getD 1 0⟩, gshape := [4, 3], axis := 0,
    lshape := [2, 3], loff := [2 * r, 0], comm := ⟨7, 2, r⟩ }

theorem ten43_block (r : Nat) (hr : r < 2) : IsBlock ten43 0 ⟨7, 2, r⟩ (ten43part r) := by
  have : r = 0 ∨ r = 1 := by omega
  have hs : blockStart 4 2 r = 2 * r := by obtain rfl | rfl := this <;> decide
  refine ⟨by decide, hr, rfl, rfl, rfl, ?_, rfl, ?_, ?_⟩
  · obtain rfl | rfl := this <;> decide
  · obtain rfl | rfl := this <;> decide
  · intro i hi
    have hl := hi.length
    cases i with
    | nil => simp [ten43part] at hl
    | cons x i =>
      show 10 * (x + 2 * r) + i.getD 0 0 = 10 * (x + blockStart 4 2 r) + i.getD 0 0
      rw [hs]

/-- The sum over the last axis, on process 1: rows 2 and 3. -/
example : ∃ B, ufuncReduce sumRed (ten43part 1) (.int (-1)) false none = .ok B ∧ B.gshape = [4] ∧
    B.loff = [2] ∧ B.arr.shape = [2] ∧ B.arr.val [1] = 93 := ⟨_, rfl, rfl, rfl, rfl, rfl⟩

example : Lists (.int (-1)) [-1] ∧ List.Forall₂ (Names ten43.shape.length) [-1] [1] ∧ 0 ∉ [1] ∧
    ∃ R, npReduce sumRed ten43 (some [-1]) false = .ok R ∧ R.shape = [4] :=
  ⟨.inr ⟨_, rfl, rfl⟩, .cons ⟨by decide, .inr rfl⟩ .nil, by decide, _, rfl, rfl⟩

/-- The values of the block of process `r` of `P`, in row-major order. -/
def blockVals (G : NArr α) (a P r : Nat) : List α := (blockIdx G.shape a P r).map G.val

theorem block_vals (G : NArr α) (a : Nat) (c : Comm) (A : MArr α) (hA : IsBlock G a c A) :
    (indices A.arr.shape).map A.arr.val = blockVals G a c.size c.rank := by
  unfold blockVals blockIdx
  rw [List.map_map, ← hA.shape]
  apply List.map_congr_left
  intro i hi
  exact hA.elems i ((indices_inShape _ _).1 hi)

theorem sel_replicate_true (s : List Nat) : sel (List.replicate s.length true) true s = s ∧
    sel (List.replicate s.length true) false s = [] := by
  induction s with
  | nil => exact ⟨rfl, rfl⟩
  | cons x s ih => simp [List.replicate_succ, sel, ih]

theorem merge_replicate_true (k : List Nat) : merge (List.replicate k.length true) [] k = k := by
  induction k with
  | nil => rfl
  | cons x k ih => simp [List.replicate_succ, merge, ih]

theorem blockLen_self (P r : Nat) (h : r < P) : blockLen P P r = 1 ∧ blockStart P P r = r := by
  simp [blockLen, blockStart, Nat.div_self (show 0 < P by omega)]

/-- C62: without axes (`axis=None`) the result is a vector with one element for each process, distributed
so that every process has its own: the reduction of its block. The function must have an identity, or
the block must not be empty. -/
theorem C62_total_partial (u : Red α) (G : NArr α) (a : Nat) (c : Comm) (A : MArr α) (hA : IsBlock G a c A)
    (hu : u.ident.isSome ∨ 0 ∉ A.arr.shape) :
    ∃ B, ufuncReduce u A .none false none = .ok B ∧
      ∀ V : NArr α, V.shape = [c.size] → V.val [c.rank] = u.fold (blockVals G a c.size c.rank) →
        IsBlock V 0 c B := by
  have hr := hA.rank
  obtain ⟨s1, s2⟩ := sel_replicate_true A.arr.shape
  have h1 : npReduce u A.arr none false = .ok (reduced u A.arr (List.replicate A.arr.shape.length true) false) := by
    unfold npReduce axesMask
    simp only
    rw [if_neg]
    rintro ⟨h1, h2, -⟩
    rw [s1, prod_eq_zero] at h2
    rcases hu with hu | hu
    · cases hi : u.ident with
      | none => rw [hi] at hu; simp at hu
      | some x => rw [hi] at h1; simp at h1
    · exact hu h2
  obtain ⟨b1, b2⟩ := blockLen_self c.size c.rank hr
  have hv : (reduced u A.arr (List.replicate A.arr.shape.length true) false).val [] =
      u.fold (blockVals G a c.size c.rank) := by
    simp only [reduced, Bool.false_eq_true, if_false]
    rw [← block_vals G a c A hA, s1]
    congr 1
    apply List.map_congr_left
    intro k hk
    have := ((indices_inShape _ _).1 hk).length
    rw [← this, merge_replicate_true]
  unfold ufuncReduce
  rw [show inferReduce A .none false = .ok (0, A.comm.size, A.comm.rank) from rfl,
    show AxisKw.none.np = none from rfl, h1]
  simp only [bind, Except.bind]
  unfold wrapResult
  have hsh : (reduced u A.arr (List.replicate A.arr.shape.length true) false).shape = [] := by
    simp only [reduced, Bool.false_eq_true, if_false, s2]
  rw [if_pos hsh, hA.comm]
  refine ⟨_, viewFrom_ok _ 0 _ _ _ (by simp), ?_⟩
  intro V hV hVr
  refine ⟨by rw [hV]; simp, hr, rfl, rfl, by rw [hV]; rfl, ?_, rfl, ?_, ?_⟩
  · simp [hV, b1]
  · simp [hV, b2]
  · intro i hi
    have hi0 : i = [0] := by
      cases hi with
      | cons h1 h2 =>
        cases h2
        congr 1
        omega
    subst hi0
    simp only [hV, List.getD_cons_zero, b2, List.modify_zero_cons, Nat.zero_add, hVr, ← hv]

/-- C62: the documented way to reduce a whole distributed array, `a.sum().allreduce()`, gives every
process the combination of all elements of the global array. `op` may be any associative and commutative
operation with identity `e`, such as the sum of integers. All of the array, its distributed axis and the
number of processes are arbitrary. -/
theorem C62_allreduce_partial (op : α → α → α) (e : α) (hassoc : ∀ x y z, op (op x y) z = op x (op y z))
    (hcomm : ∀ x y, op x y = op y x) (hid : ∀ x, op e x = x) (G : NArr α) (a ident P : Nat)
    (A : Nat → MArr α) (hA : ∀ r, r < P → IsBlock G a ⟨ident, P, r⟩ (A r)) (parts : List (MArr α))
    (hl : parts.length = P)
    (hp : ∀ r (h : r < P), ufuncReduce ⟨some e, fun l => l.foldr op e⟩ (A r) .none false none = .ok parts[r])
    (r : Nat) (hr : r < P) :
    allreduce op e parts r = .ok (((indices G.shape).map G.val).foldr op e) := by
  have key : ∀ r (h : r < P), parts[r].lshape = [1] ∧
      parts[r].arr.val [0] = (blockVals G a P r).foldr op e := by
    intro r h
    obtain ⟨B, h1, h2⟩ := C62_total_partial ⟨some e, fun l => l.foldr op e⟩ G a _ (A r) (hA r h) (.inl rfl)
    rw [hp r h] at h1
    obtain rfl := Except.ok.inj h1
    have h3 := h2 ⟨[P], fun _ => (blockVals G a P r).foldr op e⟩ rfl rfl
    obtain ⟨b1, -⟩ := blockLen_self P r h
    have h4 : parts[r].arr.shape = [1] := by rw [h3.shape]; simp [b1]
    refine ⟨by rw [h3.lshape, h4], ?_⟩
    exact h3.elems [0] (by rw [h4]; exact .cons (by omega) .nil)
  unfold allreduce
  rw [List.getElem?_eq_getElem (by omega)]
  simp only
  rw [if_neg (by simp [(key r hr).1])]
  congr 1
  have e1 : (parts.map fun B => B.arr.val [0]) =
      ((List.range P).map fun r => blockVals G a P r).map fun l => l.foldr op e := by
    apply List.ext_getElem
    · simp [hl]
    · intro k h1 h2
      simp only [List.getElem_map, List.getElem_range]
      exact (key k (by simpa [hl] using h1)).2
  rw [e1, foldr_parts op e hassoc hid]
  have hlt := (hA r hr).lt
  have h2 : ((List.range P).map fun r => blockVals G a P r).flatten.Perm ((indices G.shape).map G.val) := by
    have h3 := (blocks_indices P (by omega) G.shape a hlt).map G.val
    rw [List.map_flatMap] at h3
    exact h3
  have : LeftCommutative op := ⟨fun x y z => by rw [← hassoc, hcomm x y, hassoc]⟩
  exact h2.foldr_eq e

/-- The sum of all elements of `ten43` (each of the rows 0, 10, 20, 30 three times, plus 0, 1, 2 four
times). -/
example : ∃ B0 B1, ufuncReduce sumRed (ten43part 0) .none false none = .ok B0 ∧
    ufuncReduce sumRed (ten43part 1) .none false none = .ok B1 ∧
    allreduce (· + ·) 0 [B0, B1] 1 = .ok 192 := ⟨_, _, rfl, rfl, rfl⟩

/-- C62: an accumulation along another axis than the distributed one gives every process its block of
the accumulated global array. -/
theorem C62_accumulate_partial (acc : List α → α) (G : NArr α) (a : Nat) (c : Comm) (A : MArr α)
    (hA : IsBlock G a c A) (ax : Int) (k : Nat) (hk : Names G.shape.length ax k) (hka : k ≠ a)
    (hspell : ax ≠ a) (R : NArr α) (hR : npAccumulate acc G ax = .ok R) :
    ∃ B, ufuncAccumulate acc A (some ax) = .ok B ∧ IsBlock R a c B := by
  have hAl : A.arr.shape.length = G.shape.length := by rw [hA.shape]; simp
  have hlt := hA.lt
  obtain ⟨e1, e2, -⟩ := block_get hA
  have hn : normAxis G.shape.length ax = .ok k := by
    obtain ⟨h1, h2⟩ := hk
    unfold normAxis
    rw [if_pos (by omega)]
    congr 1
    split <;> omega
  unfold npAccumulate at hR
  rw [hn] at hR
  obtain rfl := Except.ok.inj hR
  unfold ufuncAccumulate
  simp only
  rw [if_neg (by rw [hA.axis]; exact hspell), hA.axis, e1, e2]
  simp only [bind, Except.bind]
  unfold npAccumulate
  rw [hAl, hn]
  simp only
  unfold wrapResult
  rw [if_neg (by intro h; simp only at h; rw [h] at hAl; simp at hAl; omega), hA.comm]
  have hbk := Mpi.block_le (n := G.shape.getD a 0) (P := c.size) (r := c.rank) hA.rank
  refine viewFrom_block
    (⟨G.shape, fun i => acc ((List.range (i.getD k 0 + 1)).map fun (x : Nat) => G.val (i.set k x))⟩ : NArr α) a c
    (⟨A.arr.shape, fun i => acc ((List.range (i.getD k 0 + 1)).map fun (x : Nat) => A.arr.val (i.set k x))⟩ : NArr α)
    hlt hA.rank hA.shape ?_
  intro i hi
  replace hi : InShape i A.arr.shape := hi
  simp only
  have e3 : (i.modify a (· + blockStart (G.shape.getD a 0) c.size c.rank)).getD k 0 = i.getD k 0 := by
    rw [List.getD_eq_getElem?_getD, List.getElem?_modify_ne _ _ (Ne.symm hka), List.getD_eq_getElem?_getD]
  rw [e3]
  congr 1
  apply List.map_congr_left
  intro x hx
  have hx : x ≤ i.getD k 0 := by simpa [Nat.lt_succ_iff] using hx
  have hi2 : InShape (i.set k x) A.arr.shape := by
    apply inShape_of
    · simpa using hi.length
    · intro m h1 h2
      obtain ⟨h3, h4⟩ := InShape.get hi m h2
      rw [List.getElem_set]
      split
      · rename_i h5
        subst h5
        rw [List.getD_eq_getElem _ _ h3] at hx
        omega
      · exact h4
  rw [hA.elems _ hi2]
  congr 1
  apply List.ext_getElem
  · simp
  · intro m h1 h2
    simp only [List.getElem_modify, List.getElem_set]
    by_cases hm : k = m
    · subst hm
      simp [Ne.symm hka]
    · simp [hm]

/-- C62: an accumulation along the distributed axis, given by its own number, is refused. -/
theorem C62_accumulate_refused (acc : List α → α) (G : NArr α) (a : Nat) (c : Comm) (A : MArr α)
    (hA : IsBlock G a c A) : ufuncAccumulate acc A (some (a : Int)) = .error .axisException := by
  unfold ufuncAccumulate
  simp only
  rw [if_pos hA.axis.symm]

/-- Running sums along the columns of process 1. -/
example : ∃ B, ufuncAccumulate List.sum (ten43part 1) (some (-1)) = .ok B ∧ B.gshape = [4, 3] ∧
    B.arr.val [1, 2] = 93 := ⟨_, rfl, rfl, rfl⟩

/-- C62 fails for an accumulation along the distributed axis counted from the end: it is not refused,
and the sums start again at each process. The running sums of the column 0, 1, 2, 3, 4 are 0, 1, 3, 6,
10, but process 1 has 3, 7. -/
theorem C62_accumulate_violated : ∃ R B, npAccumulate List.sum col5 (-1) = .ok R ∧
    ufuncAccumulate List.sum (col5part 1) (some (-1)) = .ok B ∧ B.gshape = [5] ∧
    R.val [3] = 6 ∧ B.arr.val [0] = 3 ∧ ∀ b, ¬ IsBlock R b ⟨7, 2, 1⟩ B := by
  refine ⟨_, _, rfl, rfl, rfl, rfl, rfl, fun b h => ?_⟩
  have h1 := h.lt
  have hb : b = 0 := by
    simp only [col5, List.length_cons, List.length_nil] at h1
    omega
  subst hb
  have h2 := h.elems [0] (.cons (by decide) .nil)
  revert h2
  decide

/-- C62 fails without the `axis` keyword, as in `np.add.reduce(a)`: `numpy` would reduce axis 0, but the
call raises `TypeError`, whichever axis is distributed. Likewise for accumulations. -/
theorem C62_default_axis_violated (u : Red α) (acc : List α → α) (A : MArr α) (keep : Bool) (out : Option (Out α)) :
    ufuncReduce u A .missing keep out = .error .typeError ∧ ufuncAccumulate acc A none = .error .typeError :=
  ⟨rfl, rfl⟩

/-- C62 fails for the largest value of an array when a process has an empty block: the value exists, but
that process raises. Here one element is distributed over two processes. -/
theorem C62_empty_violated : ∃ R A, npReduce maxRed ⟨[1], fun _ => 5⟩ none false = .ok R ∧ R.val [] = 5 ∧
    viewFrom (⟨[0], fun _ => 5⟩ : NArr Nat) 0 1 1 ⟨7, 2, 1⟩ = .ok A ∧ IsBlock ⟨[1], fun _ => 5⟩ 0 ⟨7, 2, 1⟩ A ∧
    ufuncReduce maxRed A .none false none = .error .valueError :=
  ⟨_, _, rfl, rfl, rfl, ⟨by decide, by decide, rfl, rfl, rfl, rfl, rfl, rfl, fun _ _ => rfl⟩, rfl⟩

/-- C62 fails for `a.sum(keepdims=True).allreduce()` if the array has two axes: it raises. -/
theorem C62_keepdims_violated : ∃ B, ufuncReduce sumRed (ten43part 0) .none true none = .ok B ∧
    B.gshape = [2, 1] ∧ allreduce (· + ·) 0 [B, B] 0 = .error .valueError := ⟨_, rfl, rfl, rfl⟩

/-- C62 fails for an array made with `axis=-1`: a reduction over the distributed axis by its own number
is not refused. The (2, 5) array reduced over axis 1 has shape (2), but the result says it is a
distributed vector of five elements. -/
theorem C62_negative_axis_violated : ∃ A B,
    viewFrom (⟨[2, 2], fun i => i.getD 1 0 + 3⟩ : NArr Nat) (-1) 5 3 ⟨7, 2, 1⟩ = .ok A ∧ A.gshape = [2, 5] ∧
    ufuncReduce sumRed A (.int 1) false none = .ok B ∧ B.gshape = [5] ∧ B.arr.shape = [2] :=
  ⟨_, _, rfl, rfl, rfl, rfl, rfl⟩

/-- C62 fails for a total reduction into an output array: it always raises, because `numpy` wants an
output without axes, which no distributed array is. -/
theorem C62_total_out_violated (u : Red α) (A O : MArr α) (hO : O.arr.shape ≠ []) :
    ¬ ∃ B, ufuncReduce u A .none false (some (.mpi O)) = .ok B := by
  rintro ⟨B, hB⟩
  unfold ufuncReduce at hB
  rw [show inferReduce A .none false = .ok (0, A.comm.size, A.comm.rank) from rfl] at hB
  simp only [bind, Except.bind] at hB
  cases h1 : checkOut 0 A.comm.size A.comm.rank A.comm (.mpi O) with
  | error e => rw [h1] at hB; simp at hB
  | ok O' =>
    have hO' : O' = O := by
      unfold checkOut at h1
      simp only at h1
      split at h1
      · simp at h1
      · exact (Except.ok.inj h1).symm
    subst hO'
    rw [h1] at hB
    simp only at hB
    unfold npReduce axesMask at hB
    simp only [AxisKw.np] at hB
    split at hB
    · simp at hB
    · rename_i R hR
      split at hR
      · simp at hR
      · obtain rfl := Except.ok.inj hR
        rw [if_neg] at hB
        · simp at hB
        · simp only [reduced, Bool.false_eq_true, if_false, (sel_replicate_true A.arr.shape).2]
          exact fun h => hO h.symm

end Verif.Dist
