import Verif.Proto.Create
import Verif.Proto.Lemmas

/-! # C115: creating datasets -/
namespace Verif.Proto

open Verif.Dist (NArr MArr Comm IsBlock)
open Verif.Mpi (blockStart blockLen)
open Verif.Reshape (InShape)

variable {T α : Type} [DecidableEq T]

/-- `G` with every element converted by `f`. -/
def converted (f : α → α) (G : NArr α) : NArr α := ⟨G.shape, fun i => f (G.val i)⟩

/-- C115. An ordinary dataset made from a `numpy` array or a dataset on disk has its shape, the type asked for or else that
of the data, and the elements converted to it. This is so when a distributed dataset was asked for without MPI, too.

Partial: data without axes cannot be converted (`C115_scalar_violated`). For a shape that differs from that
of the data see `C115_other_shape`. -/
theorem C115_common_partial (L : Libs T α) (hcast : ∀ t x, L.cast t t x = x) (g : Group) (q : Request T) (src : Source T α)
    (A : NArr α) (t : T) (hsrc : src = .array A t ∨ src = .disk A t) (hne : A.shape ≠ [])
    (hg : g.comm = none → g.distributed = false) (hd : q.distributed = false ∨ g.comm = none)
    (hs : ∀ s, q.shape = some s → s = A.shape) :
    ∃ D b, createDataset L g q src = .ok ⟨.common D, q.dtype.getD t, b⟩ ∧ D.shape = A.shape ∧
      ∀ i, InShape i A.shape → D.val i = L.cast t (q.dtype.getD t) (A.val i) := by
  have hgc : ¬ (g.distributed = true ∧ g.comm = none) := fun h => by simp [hg h.2] at h
  have hdist : ((q.distributed && g.comm.isSome) || src.isMpi) = false := by
    rcases hsrc with rfl | rfl <;> rcases hd with h | h <;> simp [h, Source.isMpi]
  have hat : src.attrs = .ok (some (A.shape, t)) := by rcases hsrc with rfl | rfl <;> rfl
  have hshape : q.shape.or ((some (A.shape, t)).map (·.1)) = some A.shape := by
    cases h : q.shape with
    | none => rfl
    | some s => simp [hs s h]
  have hdt : (q.dtype.or ((some (A.shape, t)).map (·.2))).getD L.float = q.dtype.getD t := by
    cases q.dtype <;> rfl
  unfold createDataset
  rw [if_neg hgc, hat]
  simp only
  rw [hshape]
  simp only
  rw [hdt, hdist, if_neg (by simp)]
  by_cases ht : takes src A.shape (q.dtype.getD t) = true
  · rw [if_pos ht]
    unfold takes at ht
    rw [hat] at ht
    simp only [Bool.and_eq_true, decide_eq_true_eq, true_and] at ht
    rcases hsrc with rfl | rfl
    · refine ⟨A, true, rfl, rfl, fun i _ => ?_⟩
      rw [ht.1, hcast]
    · simp [Source.hasView] at ht
  · rw [if_neg ht]
    obtain ⟨D, h1, h2, h3⟩ := npAssign_same (L.cast t (q.dtype.getD t))
      ⟨A.shape, fun _ => L.zero (q.dtype.getD t)⟩ A rfl
    have hf : fillNew (L.cast t (q.dtype.getD t)) (.common ⟨A.shape, fun _ => L.zero (q.dtype.getD t)⟩) A =
        .ok (.common D) := by
      unfold fillNew
      rw [if_neg hne]
      simp only
      rw [if_neg hne, h1]
    refine ⟨D, false, ?_, h2, h3⟩
    rcases hsrc with rfl | rfl
    · show Except.map _ (fillNew _ _ A) = _
      rw [hf]; rfl
    · show Except.map _ (fillNew _ _ A) = _
      rw [hf]; rfl

/-- C115. An ordinary dataset made without data holds zeros; its shape must be given. -/
theorem C115_zeros (L : Libs T α) (g : Group) (q : Request T) (hg : g.comm = none → g.distributed = false)
    (hd : q.distributed = false ∨ g.comm = none) :
    createDataset L g q .none = match q.shape with
      | none => .error .valueError
      | some s => .ok ⟨.common ⟨s, fun _ => L.zero (q.dtype.getD L.float)⟩, q.dtype.getD L.float, false⟩ := by
  have hgc : ¬ (g.distributed = true ∧ g.comm = none) := fun h => by simp [hg h.2] at h
  have hdist : ((q.distributed && g.comm.isSome) || (Source.none : Source T α).isMpi) = false := by
    rcases hd with h | h <;> simp [h, Source.isMpi]
  unfold createDataset
  rw [if_neg hgc]
  cases h : q.shape with
  | none => rfl
  | some s =>
    simp only [Source.attrs, Option.map_none, Option.or_none]
    rw [hdist, if_neg (by simp)]
    rfl

/-- C115. Distributed datasets are refused in groups that are not distributed. -/
theorem C115_refused (L : Libs T α) (g : Group) (q : Request T) (src : Source T α) (hg : g.distributed = false)
    (hl : src ≠ .list) (hn : src = .none → q.shape ≠ none)
    (hd : (q.distributed = true ∧ g.comm ≠ none) ∨ src.isMpi = true) :
    createDataset L g q src = .error .runtimeError := by
  have hdist : ((q.distributed && g.comm.isSome) || src.isMpi) = true := by
    rcases hd with ⟨h1, h2⟩ | h
    · simp [h1, Option.isSome_iff_ne_none.2 h2]
    · simp [h]
  have hat : ∃ a, src.attrs = .ok a ∧ (q.shape.or (a.map (·.1))) ≠ none := by
    cases src with
    | none => exact ⟨_, rfl, by simpa using hn rfl⟩
    | array A t => exact ⟨_, rfl, by cases q.shape <;> simp⟩
    | disk A t => exact ⟨_, rfl, by cases q.shape <;> simp⟩
    | mpi M t => exact ⟨_, rfl, by cases q.shape <;> simp⟩
    | list => exact absurd rfl hl
  obtain ⟨a, h1, h2⟩ := hat
  unfold createDataset
  rw [if_neg (by simp [hg]), h1]
  simp only
  cases h : q.shape.or (a.map (·.1)) with
  | none => exact absurd h h2
  | some s => simp only; rw [hdist, if_pos ⟨hg, rfl⟩]

/-- C115. A distributed dataset made without data has the shape and the axis asked for; this is refused exactly if there is no such axis. -/
theorem C115_axis (L : Libs T α) (g : Group) (q : Request T) (c : Comm) (s : List Nat) (a : Int) (hg : g.distributed = true)
    (hc : g.comm = some c) (hq : q.distributed = true) (hs : q.shape = some s) (ha : q.axis = some a) :
    ((-(s.length : Int) ≤ a ∧ a < s.length) → ∃ M t, createDataset L g q .none = .ok ⟨.dist M, t, false⟩ ∧ M.gshape = s ∧ M.axis = a) ∧
    (¬ (-(s.length : Int) ≤ a ∧ a < s.length) → createDataset L g q .none = .error .indexError) := by
  have h0 : createDataset L g q .none = (newDist s a c L.junk).map fun M => ⟨.dist M, q.dtype.getD L.float, false⟩ := by
    unfold createDataset
    rw [if_neg (by simp [hc])]
    simp only [Source.attrs, hs, hq, hc, hg, Option.map_none, Option.or_none]
    rw [if_neg (by simp)]
    rw [if_neg (by simp [takes, Source.attrs])]
    unfold copied
    simp only [Option.isSome_some, Bool.and_self, Bool.true_or, if_true, ha, hc]
    cases newDist s a c L.junk <;> rfl
  rw [h0]
  unfold newDist
  constructor
  · rintro ⟨h1, h2⟩
    by_cases h : 0 ≤ a
    · rw [if_pos ⟨h, h2⟩]
      refine ⟨_, _, rfl, rfl, ?_⟩
      simp only [newMArr]
      omega
    · rw [if_neg (by omega), if_pos ⟨h1, by omega⟩]
      exact ⟨_, _, rfl, rfl, rfl⟩
  · intro h
    rw [if_neg (by omega), if_neg (by omega)]
    rfl

example (L : Libs Nat Int) (c : Comm) : createDataset L ⟨some c, true⟩ { shape := some [4, 6], distributed := true, axis := some 2 } .none =
    .error .indexError := (C115_axis L ⟨some c, true⟩ _ c [4, 6] 2 rfl rfl rfl rfl rfl).2 (by decide)

/-- C115. A dataset made from a distributed array, of which only the axis may be asked for differently, has the block of every
process, over the axis asked for or else over that of the array.

Partial: with a type of its own see `C115_convert_violated`, with a shape `C115_global_shape_partial`. -/
theorem C115_distributed_partial (L : Libs T α) (g : Group) (q : Request T) (G : NArr α) (a : Nat) (c : Comm) (M : MArr α)
    (t : T) (hM : IsBlock G a c M) (hg : g.distributed = true) (hc : g.comm = some c) (hs : q.shape = none)
    (ht : q.dtype = none ∨ q.dtype = some t) (k : Nat) (hk : q.axis = none ∧ k = a ∨ q.axis = some (k : Int))
    (hred : ∃ M', L.redist M k = .ok M' ∧ IsBlock G k c M') :
    ∃ M' b, createDataset L g q (.mpi M t) = .ok ⟨.dist M', t, b⟩ ∧ IsBlock G k c M' := by
  obtain ⟨M', h1, h2⟩ := hred
  have hdt : (q.dtype.or ((some (M.arr.shape, t)).map (·.2))).getD L.float = t := by
    rcases ht with h | h <;> simp [h]
  have hsh : q.shape.or ((some (M.arr.shape, t)).map (·.1)) = some M.arr.shape := by rw [hs]; rfl
  have htk : takes (.mpi M t : Source T α) M.arr.shape t = true := by simp [takes, Source.attrs, Source.hasView]
  unfold createDataset
  rw [if_neg (by simp [hc])]
  simp only [Source.attrs]
  rw [hsh]
  simp only
  rw [hdt, htk, if_neg (by simp [hg]), if_pos rfl]
  have hdist : ((q.distributed && g.comm.isSome) || (Source.mpi M t : Source T α).isMpi) = true := by simp [Source.isMpi]
  rw [hdist]
  unfold taken
  rw [if_pos rfl]
  simp only
  rw [if_neg (by rw [hc, hM.comm]; simp)]
  rcases hk with ⟨h, rfl⟩ | h
  · rw [h]; exact ⟨M, true, rfl, hM⟩
  · rw [h]
    simp only
    rw [h1]
    exact ⟨M', _, rfl, h2⟩

/-- The blocks of a converted array. -/
theorem converted_block (f : α → α) (G : NArr α) (a : Nat) (c : Comm) (M : MArr α) (h : IsBlock G a c M)
    (A : NArr α) (hA : A.shape = M.arr.shape) (hv : ∀ i, InShape i M.arr.shape → A.val i = f (M.arr.val i)) :
    IsBlock (converted f G) a c { M with arr := A } := by
  refine ⟨h.lt, h.rank, h.comm, h.axis, h.gshape, by rw [hA]; exact h.shape, by rw [hA]; exact h.lshape, h.loff, ?_⟩
  intro i hi
  simp only [hA] at hi
  show A.val i = f _
  rw [hv i hi, h.elems i hi]
  rfl

/-- C115. A dataset made from a distributed array, with its global shape and its axis and any type, has the block of the
converted array on every process. (`redistribute` to the same axis returns the array, C04.)

Partial: for another axis see `C115_other_axis_violated`, without an axis `C115_disagree_violated`. -/
theorem C115_global_shape_partial (L : Libs T α) (hcast : ∀ t x, L.cast t t x = x) (g : Group) (q : Request T) (G : NArr α)
    (a : Nat) (c : Comm) (M : MArr α) (t : T) (hM : IsBlock G a c M) (hg : g.distributed = true) (hc : g.comm = some c)
    (hs : q.shape = some G.shape) (hax : q.axis = some (a : Int)) (hred : L.redist M a = .ok M) :
    ∃ M' b, createDataset L g q (.mpi M t) = .ok ⟨.dist M', q.dtype.getD t, b⟩ ∧
      IsBlock (converted (L.cast t (q.dtype.getD t)) G) a c M' := by
  have hdt : (q.dtype.or ((some (M.arr.shape, t)).map (·.2))).getD L.float = q.dtype.getD t := by
    cases q.dtype <;> rfl
  have hsh : q.shape.or ((some (M.arr.shape, t)).map (·.1)) = some G.shape := by rw [hs]; rfl
  have hdist : ((q.distributed && g.comm.isSome) || (Source.mpi M t : Source T α).isMpi) = true := by simp [Source.isMpi]
  have hlt := hM.lt
  unfold createDataset
  rw [if_neg (by simp [hc])]
  simp only [Source.attrs]
  rw [hsh]
  simp only
  rw [hdt, hdist, if_neg (by simp [hg])]
  by_cases htk : takes (.mpi M t : Source T α) G.shape (q.dtype.getD t) = true
  · rw [if_pos htk]
    simp only [takes, Source.attrs, Bool.and_eq_true, decide_eq_true_eq] at htk
    unfold taken
    rw [if_pos rfl]
    simp only
    rw [if_neg (by rw [hc, hM.comm]; simp), hax]
    simp only
    rw [hred]
    refine ⟨M, _, rfl, ?_⟩
    exact converted_block _ G a c M hM M.arr rfl (fun i _ => by rw [htk.1.2, hcast])
  · rw [if_neg htk]
    obtain ⟨G0, hG0, hN⟩ := newMArr_block G.shape a c L.junk hlt hM.rank
    have hnd : newDist G.shape (a : Int) c L.junk = .ok (newMArr G.shape a c L.junk) := by
      unfold newDist; rw [if_pos (by omega)]; rfl
    have hshape : (newMArr G.shape a c L.junk).arr.shape = M.arr.shape := by rw [hN.shape, hM.shape, hG0]
    have hMne : M.arr.shape ≠ [] := by
      intro h
      have h' := congrArg List.length hM.shape
      rw [h] at h'
      simp at h'
      omega
    have hget : Dist.pyGet (newMArr G.shape a c L.junk).arr.shape (newMArr G.shape a c L.junk).axis =
        .ok (blockLen (G.shape.getD a 0) c.size c.rank) := by
      rw [hN.axis]
      have hl : a < (newMArr G.shape a c L.junk).arr.shape.length := by rw [hN.shape, hG0]; simpa using hlt
      rw [Dist.pyGet_nat _ _ hl]
      congr 1
      simp only [hN.shape, hG0, List.getElem_set_self]
    have hsame : IsBlock (converted (L.cast t (q.dtype.getD t)) G) a c (newMArr G.shape a c L.junk) ∨
        blockLen (G.shape.getD a 0) c.size c.rank ≠ 0 := by
      by_cases h0 : blockLen (G.shape.getD a 0) c.size c.rank = 0
      · left
        refine ⟨hM.lt, hM.rank, rfl, rfl, rfl, hN.shape.trans (by rw [hG0]; rfl), hN.lshape, hN.loff.trans (by rw [hG0]; rfl), ?_⟩
        intro i hi
        exfalso
        obtain ⟨hlt', hk⟩ := Dist.InShape.get hi a (by rw [hN.shape, hG0]; simpa using hlt)
        simp only [hN.shape, hG0, List.getElem_set_self, h0] at hk
        omega
      · exact .inr h0
    obtain ⟨A, h1, h2, h3⟩ := npAssign_same (L.cast t (q.dtype.getD t)) (newMArr G.shape a c L.junk).arr M.arr hshape.symm
    have hcopied : copied L g q true G.shape (q.dtype.getD t) (.mpi M t) =
        .map (⟨·, q.dtype.getD t, false⟩)
          (fillNew (L.cast t (q.dtype.getD t)) (.dist (newMArr G.shape a c L.junk)) M.arr) := by
      unfold copied
      simp only [if_true, hax, hc, hnd]
      rfl
    rw [hcopied]
    unfold fillNew
    rw [if_neg hMne]
    simp only
    rw [hget]
    by_cases h0 : blockLen (G.shape.getD a 0) c.size c.rank = 0
    · rw [h0]
      exact ⟨_, false, rfl, hsame.resolve_right (fun h => h h0)⟩
    · obtain ⟨n, hn⟩ := Nat.exists_eq_succ_of_ne_zero h0
      rw [hn]
      simp only
      rw [h1]
      refine ⟨{ newMArr G.shape a c L.junk with arr := A }, false, rfl, ?_⟩
      refine ⟨hM.lt, hM.rank, rfl, rfl, rfl, ?_, ?_, hN.loff.trans (by rw [hG0]; rfl), ?_⟩
      · show A.shape = _
        rw [h2, hN.shape, hG0]; rfl
      · show _ = A.shape
        rw [h2]; exact hN.lshape
      · intro i hi
        have hi' : InShape i (newMArr G.shape a c L.junk).arr.shape := by rw [← h2]; exact hi
        show A.val i = _
        rw [h3 i hi', hM.elems i (hshape ▸ hi')]
        rfl

/-! ### Concrete cases -/

/-- Conversion keeps the elements, memory that is not set holds `[9, 9]`, and redistribution is to the same axis. -/
def exL : Libs Nat (List Nat) := ⟨fun _ _ x => x, fun _ => [], 0, fun _ => [9, 9], fun M _ => .ok M⟩

/-- A 2 × 2 array whose elements are their indices. -/
def ex22 : NArr (List Nat) := ⟨[2, 2], id⟩

/-- Its row `r`, on process `r` of 2. -/
def ex22row (r : Nat) : MArr (List Nat) :=
  { arr := ⟨[1, 2], fun i => i.modify 0 (· + r)⟩, gshape := [2, 2], axis := 0, lshape := [1, 2], loff := [r, 0],
    comm := ⟨7, 2, r⟩ }

theorem ex22row_block (r : Nat) (hr : r < 2) : IsBlock ex22 0 ⟨7, 2, r⟩ (ex22row r) := by
  have h2 : r = 0 ∨ r = 1 := by omega
  rcases h2 with rfl | rfl <;>
    exact ⟨by decide, by decide, rfl, rfl, rfl, rfl, rfl, rfl, fun _ _ => rfl⟩

example := C115_common_partial exL (fun _ _ => rfl) ⟨none, false⟩ { dtype := some 3, distributed := true } _ ex22 0
  (.inr rfl) (by decide) (fun _ => rfl) (.inr rfl) (by simp)

example := C115_zeros exL ⟨some ⟨7, 2, 0⟩, true⟩ { shape := some [4, 2] } (by simp) (.inl rfl)

example := C115_refused exL ⟨some ⟨7, 2, 0⟩, false⟩ {} (.mpi (ex22row 0) 0) rfl (by simp) (by simp) (.inr rfl)

example (r : Nat) (hr : r < 2) := C115_distributed_partial exL ⟨some ⟨7, 2, r⟩, true⟩ { axis := some 0 } ex22 0 ⟨7, 2, r⟩
  (ex22row r) 0 (ex22row_block r hr) rfl rfl rfl (.inl rfl) 0 (.inr rfl) ⟨_, rfl, ex22row_block r hr⟩

example (r : Nat) (hr : r < 2) := C115_global_shape_partial exL (fun _ _ => rfl) ⟨some ⟨7, 2, r⟩, true⟩
  { shape := some [2, 2], axis := some 0, dtype := some 5 } ex22 0 ⟨7, 2, r⟩
  (ex22row r) 0 (ex22row_block r hr) rfl rfl rfl rfl rfl

/-! ### Where it fails -/

/-- C115 fails when a distributed array is to be converted to another type and no shape is given: the shape of the local array
is taken for the global one. Of a 2 × 2 array on two processes the first row is left, and the second is lost. -/
theorem C115_convert_violated : ∃ D0 D1,
    createDataset exL ⟨some ⟨7, 2, 0⟩, true⟩ { dtype := some 1, axis := some 0 } (.mpi (ex22row 0) 0) =
      .ok ⟨.dist D0, 1, false⟩ ∧
    createDataset exL ⟨some ⟨7, 2, 1⟩, true⟩ { dtype := some 1, axis := some 0 } (.mpi (ex22row 1) 0) =
      .ok ⟨.dist D1, 1, false⟩ ∧
    D0.gshape = [1, 2] ∧ D0.arr.shape = [1, 2] ∧ D1.gshape = [1, 2] ∧ D1.arr.shape = [0, 2] :=
  ⟨_, _, rfl, rfl, rfl, rfl, rfl, rfl⟩

/-- A 2 × 1 array, and its row on process `r` of 2. -/
def ex21 : NArr (List Nat) := ⟨[2, 1], id⟩
def ex21row (r : Nat) : MArr (List Nat) :=
  { arr := ⟨[1, 1], fun i => i.modify 0 (· + r)⟩, gshape := [2, 1], axis := 0, lshape := [1, 1], loff := [r, 0],
    comm := ⟨7, 2, r⟩ }

/-- C115 fails when the global shape and an axis other than that of the data are given. The data is not redistributed, and a
local array that happens to fit is repeated: a 2 × 1 array becomes, on the process that has all of it, its first row twice. -/
theorem C115_other_axis_violated : IsBlock ex21 0 ⟨7, 2, 0⟩ (ex21row 0) ∧ ex21.val [1, 0] = [1, 0] ∧ ∃ D,
    createDataset exL ⟨some ⟨7, 2, 0⟩, true⟩ { shape := some [2, 1], axis := some 1 } (.mpi (ex21row 0) 0) =
      .ok ⟨.dist D, 0, false⟩ ∧ D.arr.shape = [2, 1] ∧ D.arr.val [0, 0] = [0, 0] ∧ D.arr.val [1, 0] = [0, 0] :=
  ⟨⟨by decide, by decide, rfl, rfl, rfl, rfl, rfl, rfl, fun _ _ => rfl⟩, rfl, _, rfl, rfl, rfl, rfl⟩

/-- C115 fails when the global shape and another axis are given and the local array does not fit: a 2 × 2 array cannot be made
into a dataset distributed over its columns. -/
theorem C115_other_axis_raises_violated (r : Nat) (hr : r < 2) :
    createDataset exL ⟨some ⟨7, 2, r⟩, true⟩ { shape := some [2, 2], axis := some 1 } (.mpi (ex22row r) 0) =
      .error .valueError := by
  have h2 : r = 0 ∨ r = 1 := by omega
  rcases h2 with rfl | rfl <;> rfl

/-- A 1 × 2 array on two processes: process 0 has all of it. -/
def ex12 : NArr (List Nat) := ⟨[1, 2], id⟩
def ex12part (r : Nat) : MArr (List Nat) :=
  { arr := ⟨[1 - r, 2], id⟩, gshape := [1, 2], axis := 0, lshape := [1 - r, 2], loff := [r, 0], comm := ⟨7, 2, r⟩ }

/-- C115 fails where processes compare the global shape with their own arrays: for a 1 × 2 array on two processes, process 0
makes the dataset and process 1 raises `RuntimeError` if no axis is given; if another axis is given, process 0 starts
a redistribution in which process 1 takes no part, so that it waits for ever. -/
theorem C115_disagree_violated :
    IsBlock ex12 0 ⟨7, 2, 0⟩ (ex12part 0) ∧ IsBlock ex12 0 ⟨7, 2, 1⟩ (ex12part 1) ∧
    createDataset exL ⟨some ⟨7, 2, 0⟩, true⟩ { shape := some [1, 2] } (.mpi (ex12part 0) 0) =
      .ok ⟨.dist (ex12part 0), 0, true⟩ ∧
    createDataset exL ⟨some ⟨7, 2, 1⟩, true⟩ { shape := some [1, 2] } (.mpi (ex12part 1) 0) = .error .runtimeError ∧
    joins { shape := some [1, 2], axis := some 1 } (ex12part 0) 0 = true ∧
    joins { shape := some [1, 2], axis := some 1 } (ex12part 1) 0 = false := by
  refine ⟨⟨by decide, by decide, rfl, rfl, rfl, rfl, rfl, rfl, fun i hi => ?_⟩,
    ⟨by decide, by decide, rfl, rfl, rfl, rfl, rfl, rfl, fun i hi => ?_⟩, rfl, rfl, rfl, rfl⟩
  · cases i <;> rfl
  · obtain ⟨_, h⟩ := Dist.InShape.get hi 0 (by decide)
    exact absurd h (by simp [ex12part])

/-- C115 fails for ordinary data of a distributed dataset: an array of the same type and shape is refused; data on disk, or of
another type, is refused as it does not fit the blocks. -/
theorem C115_plain_violated (L : Libs T α) (g : Group) (c : Comm) (hg : g.distributed = true) (hc : g.comm = some c)
    (A : NArr α) (t : T) (axis : Option Int) (r : Nat) (hr : r < 2) :
    createDataset L g { distributed := true, axis := axis } (.array A t) = .error .typeError ∧
    createDataset exL ⟨some ⟨7, 2, r⟩, true⟩ { distributed := true, axis := some 0 } (.disk ex22 0) = .error .valueError ∧
    createDataset exL ⟨some ⟨7, 2, r⟩, true⟩ { distributed := true, axis := some 0, dtype := some 1 } (.array ex22 0) =
      .error .valueError := by
  refine ⟨?_, ?_⟩
  · simp [createDataset, hg, hc, Source.attrs, takes, Source.hasView, taken]
  · have h2 : r = 0 ∨ r = 1 := by omega
    rcases h2 with rfl | rfl <;> exact ⟨rfl, rfl⟩

/-- C115 fails without `mpi4py`: in a distributed group nothing can be made, for the communicator is used before it is found to
be missing. -/
theorem C115_serial_violated (L : Libs T α) (q : Request T) (src : Source T α) :
    createDataset L ⟨none, true⟩ q src = .error .attributeError := rfl

/-- C115 fails for data without axes that has to be converted. -/
theorem C115_scalar_violated (L : Libs T α) (v : α) (t t' : T) (h : t' ≠ t) :
    createDataset L ⟨none, false⟩ { dtype := some t' } (.array ⟨[], fun _ => v⟩ t) = .error .indexError := by
  simp [createDataset, Source.attrs, takes, h, Source.isMpi, copied, fillNew]
  rfl

/-- C115 fails for distributed datasets made without data: they hold whatever the memory held. -/
theorem C115_unset_violated (L : Libs T α) (c : Comm) (s : List Nat) (k : Nat) (hk : k < s.length) : ∃ D,
    createDataset L ⟨some c, true⟩ { shape := some s, distributed := true, axis := some (k : Int) } .none =
      .ok ⟨.dist D, L.float, false⟩ ∧ D.gshape = s ∧ D.arr.val = L.junk := by
  have hnd : newDist s (k : Int) c L.junk = .ok (newMArr s k c L.junk) := by
    unfold newDist; rw [if_pos (by omega)]; rfl
  refine ⟨newMArr s k c L.junk, ?_, rfl, rfl⟩
  simp [createDataset, Source.attrs, takes, Source.isMpi, copied, hnd]
  rfl

/-- C115 fails for lists, which have no shape. -/
theorem C115_list_violated (L : Libs T α) (g : Group) (q : Request T) :
    createDataset L g q (.list : Source T α) = .error .attributeError := by
  unfold createDataset
  split <;> rfl

end Verif.Proto
