import Verif.Serial.Model
import Verif.Split.ShareProps
import Verif.Load.ReadProps
import Verif.Store.Spec

/-!
# C116: without MPI everything runs as on one process
-/
namespace Verif.Serial

open Verif.Dist (NArr MArr Comm IsBlock pyGet)
open Verif.Slice (FileSel PySlice)
open Verif.Load (Io Format Covering PicksAll Selected)

variable {α : Type}

/-! ### Helpers -/

theorem size_eq (mpi : Bool) : size mpi = 1 := by cases mpi <;> rfl
theorem rank_eq (mpi : Bool) : rank mpi = 0 := by cases mpi <;> rfl

theorem splitLocal_one (n : Nat) : Split.splitLocal n 1 0 = .ok (n, 0, n) := by
  rw [Split.splitLocal_ok n 1 0 (by omega)]
  simp [Split.blk, Nat.mod_one]

theorem newArr_eq (mpi : Bool) (shape : List Nat) (axis : Nat) (junk : List Nat → α) :
    newArr mpi shape axis junk = Proto.newMArr shape axis ⟨0, 1, 0⟩ junk := by cases mpi <;> rfl

theorem applyAll_map {β γ : Type} (f : β → Option γ) (g : β → γ) (xs : List β) (h : ∀ x ∈ xs, f x = some (g x)) :
    Split.applyAll f ((List.range xs.length).zip xs) = some (((List.range xs.length).zip xs).map fun p => (p.1, g p.2)) := by
  apply Split.applyAll_some
  intro p hp
  exact h _ (List.of_mem_zip hp).2

/-! ### What holds -/

/-- **C116** (lists). The one process has the whole list, with `mpi4py` or without: in its order for the methods 'con' and 'alt', rearranged for 'rand'. Another
method is refused. -/
theorem C116_lists {β : Type} (mpi : Bool) (xs : List β) (draw : Nat → List Nat) :
    partitionList mpi xs .con draw = .ok xs ∧ partitionList mpi xs .alt draw = .ok xs ∧
    (((draw 0).Perm (List.range xs.length)) → ∃ ys, partitionList mpi xs .rand draw = .ok ys ∧ ys.Perm xs) ∧
    partitionList mpi xs .other draw = .error .valueError := by
  have h : ∀ m, partitionList mpi xs m draw = Split.partitionList xs 0 1 m (draw 0) := by
    intro m
    cases mpi <;> rfl
  refine ⟨?_, ?_, ?_, ?_⟩
  · rw [h]
    obtain ⟨piece, h1, h2, -⟩ := Split.C02_con_concat xs 1 (by omega) (draw 0)
    rw [h1 0 (by omega), ← h2]
    simp [List.range_succ]
  · rw [h]
    obtain ⟨piece, h1, h2, -⟩ := Split.C02_alt_indices xs 1 (by omega) (draw 0)
    rw [h1 0 (by omega)]
    congr 1
    apply List.ext_getElem?
    intro k
    rw [h2 0 k]
    simp
  · intro hp
    obtain ⟨piece, h1, h2⟩ := Split.C02_rand_rearrangement xs 1 (by omega) (draw 0) hp
    refine ⟨piece 0, by rw [h, h1 0 (by omega)], ?_⟩
    simpa [List.range_succ] using h2
  · rw [h, Split.C02_unknown_method xs 0 1 (by omega)]

example : partitionList false [3, 1, 4, 1] .alt (fun _ => []) = .ok [3, 1, 4, 1] := (C116_lists false _ _).2.1

/-- **C116** (parallel map). The list of the results, in order, whichever root and method are asked for, with `mpi4py` or without; if the function raises for
some element, so does the call. -/
theorem C116_map {β γ : Type} (mpi : Bool) (f : β → Option γ) (xs : List β) (root : Option Nat) (m : Split.Method) (draw : Nat → List Nat) :
    (∀ g : β → γ, (∀ x ∈ xs, f x = some (g x)) → parallelMap mpi f xs root m draw = .returned (some (xs.map g))) ∧
    ((∃ x ∈ xs, f x = none) → parallelMap mpi f xs root m draw = .raised) := by
  have e : parallelMap mpi f xs root m draw = match Split.applyAll f ((List.range xs.length).zip xs) with
      | none => .raised
      | some l => .returned (some (l.map (·.2))) := by cases mpi <;> rfl
  refine ⟨fun g hg => ?_, fun ⟨x, hx, hf⟩ => ?_⟩
  · rw [e, applyAll_map f g xs hg]
    simp only [List.map_map]
    congr 2
    have : ((fun p : Nat × γ => p.2) ∘ fun p : Nat × β => (p.1, g p.2)) = g ∘ Prod.snd := rfl
    rw [this, ← List.map_map, List.map_snd_zip (by simp)]
  · have : Split.applyAll f ((List.range xs.length).zip xs) = none := by
      have hi := Split.applyAll_isSome f ((List.range xs.length).zip xs)
      cases ha : Split.applyAll f ((List.range xs.length).zip xs) with
      | none => rfl
      | some l =>
        rw [ha] at hi
        obtain ⟨p, hp, rfl⟩ := (Split.mem_zip_range xs x).1 hx
        have := hi.1 rfl p hp
        rw [hf] at this
        cases this
    rw [e, this]

example : parallelMap false (fun x : Nat => if x = 0 then none else some (10 / x)) [1, 2, 5] (some 0) .con (fun _ => []) = .returned (some [10, 5, 2]) := by
  rw [(C116_map false _ _ _ _ _).1 (fun x => 10 / x) (by simp)]
  rfl

/-- **C116** (new arrays). The local array is the whole array, with `mpi4py` or without. -/
theorem C116_create (mpi : Bool) (shape : List Nat) (axis : Nat) (h : axis < shape.length) (junk : List Nat → α) :
    (newArr mpi shape axis junk).arr.shape = shape ∧ (newArr mpi shape axis junk).gshape = shape ∧ (newArr mpi shape axis junk).lshape = shape ∧
    (newArr mpi shape axis junk).axis = axis ∧ ∀ x ∈ (newArr mpi shape axis junk).loff, x = 0 := by
  rw [newArr_eq]
  have hs : shape.set axis (shape.getD axis 0) = shape := by
    rw [List.getD_eq_getElem _ _ h, List.set_getElem_self]
  simp only [Proto.newMArr, Dist.localStart, splitLocal_one, hs, true_and]
  intro x hx
  rcases List.mem_or_eq_of_mem_set hx with h1 | h1
  · exact (List.mem_replicate.1 h1).2
  · exact h1

example : (newArr false [4, 3] 1 (fun _ => (7 : Int))).lshape = [4, 3] := (C116_create false _ 1 (by decide) _).2.2.1

/-- **C116** (Zarr). What is read from a Zarr file is the selection of the dataset, with `mpi4py` or without. -/
theorem C116_read_zarr (mpi : Bool) (io : Io) (hp : 0 < io.p) (hq : 0 < io.q) (junk : List Nat → α) (G : NArr α)
    (sel : Option (List FileSel)) (es : List FileSel) (hes : Covering G.shape.length sel es) (pss : List (List Nat))
    (hps : PicksAll G.shape es pss) (axis : Int) (a : Nat) (ha : Dist.Names G.shape.length axis a)
    (hlist : es.any Load.FileSel.isList = false) (R : NArr α) (hR : Selected G pss R) :
    ∃ A, fromFile mpi .zarr io junk G sel axis = .ok (seen A) ∧ IsBlock R a ⟨0, 1, 0⟩ A := by
  obtain ⟨A, hA, hB⟩ := Load.C10_nd_read_partial .zarr io hp hq junk G sel es hes pss hps axis a ha ⟨0, 1, 0⟩ (by decide)
    (.inr ⟨rfl, hlist⟩) R hR
  refine ⟨A, ?_, hB⟩
  unfold Load.fromFile at hA
  unfold fromFile
  dsimp only at hA ⊢
  split at hA
  · cases hA
  · rename_i hax
    rw [if_neg hax]
    split at hA
    · cases hA
    · rename_i gshape hg
      rw [hg]
      dsimp only
      simp only [newArr_eq]
      split at hA
      · rename_i s m hs hm
        rw [hs, hm]
        dsimp only
        split at hA
        · cases hA
        · rename_i r hr
          rw [hr]
          dsimp only
          rw [if_neg (fun h => by cases h.1), hA]
      · cases hA

/-- **C116** (HDF5, with `mpi4py`). This is what reading is on one process. -/
theorem C116_read_mpi (fmt : Format) (io : Io) (junk : List Nat → α) (G : NArr α) (sel : Option (List FileSel)) (axis : Int) :
    fromFile true fmt io junk G sel axis = match Load.fromFile fmt io junk G sel axis ⟨0, 1, 0⟩ with
      | .ok A => .ok (seen A)
      | .error e => .error (.load e) := by
  unfold Load.fromFile fromFile
  dsimp only
  split
  · rfl
  · cases Load.readShape G.shape (Load.expandSel sel G.shape.length) with
    | error e => rfl
    | ok gshape =>
      dsimp only
      simp only [newArr_eq]
      generalize (Load.expandSel sel G.shape.length)[(if axis < 0 then (G.shape.length : Int) + axis else axis).toNat]? = x
      generalize G.shape[(if axis < 0 then (G.shape.length : Int) + axis else axis).toNat]? = y
      cases x with
      | none => rfl
      | some s =>
        cases y with
        | none => rfl
        | some m =>
          dsimp only
          cases Load.ofSlice _ with
          | error e => rfl
          | ok r =>
            dsimp only
            rw [if_neg (by simp [world])]
            cases Load.readInto fmt io G _ _ _ <;> rfl

theorem pySet_of_pyGet {β : Type} (l : List β) (i : Int) (v : β) (h : pyGet l i = .ok v) : Dist.pySet l i v = .ok l := by
  unfold pyGet at h
  unfold Dist.pySet
  by_cases hi : 0 ≤ i
  · simp only [hi, if_true] at h ⊢
    cases hl : l[i.toNat]? with
    | none => rw [hl] at h; cases h
    | some x =>
      rw [hl] at h
      simp only [Except.ok.injEq] at h
      obtain ⟨hlt, he⟩ := List.getElem?_eq_some_iff.1 hl
      rw [if_pos hlt, ← h, ← he, List.set_getElem_self]
  · simp only [hi, if_false] at h ⊢
    by_cases hn : (-i).toNat ≤ l.length
    · simp only [hn, if_true] at h ⊢
      cases hl : l[l.length - (-i).toNat]? with
      | none => rw [hl] at h; cases h
      | some x =>
        rw [hl] at h
        simp only [Except.ok.injEq] at h
        obtain ⟨hlt, he⟩ := List.getElem?_eq_some_iff.1 hl
        rw [← h, ← he, List.set_getElem_self]
    · simp only [hn, if_false] at h
      cases h

theorem pySet_zero (n : Nat) (l : List Nat) (hl : l.length = n) (i : Int) (v : Nat) (h : pyGet l i = .ok v) :
    Dist.pySet (List.replicate n 0) i 0 = .ok (List.replicate n 0) := by
  apply pySet_of_pyGet
  unfold pyGet at h ⊢
  rw [List.length_replicate, ← hl]
  by_cases hi : 0 ≤ i
  · simp only [hi, if_true] at h ⊢
    cases hx : l[i.toNat]? with
    | none => rw [hx] at h; cases h
    | some x =>
      have hlt := (List.getElem?_eq_some_iff.1 hx).1
      simp [hlt]
  · simp only [hi, if_false] at h ⊢
    by_cases hn : (-i).toNat ≤ l.length
    · simp only [hn, if_true] at h ⊢
      have : l.length - (-i).toNat < l.length := by omega
      simp [this]
    · simp only [hn, if_false] at h
      cases h

/-- **C116** (wrap, with `mpi4py`). On one process an array is wrapped as it is. -/
theorem C116_wrap_mpi (A : NArr α) (axis : Int) (n : Nat) (h : pyGet A.shape axis = .ok n) :
    wrap true A axis = .ok ⟨A, A.shape, axis, A.shape, List.replicate A.shape.length 0⟩ := by
  unfold wrap
  rw [h]
  dsimp only
  rw [size_eq, rank_eq, splitLocal_one]
  dsimp only
  have ha : attr true "MAX" = .ok .lib := by rfl
  rw [ha]
  dsimp only
  rw [if_neg (by simp)]
  have hv : Dist.viewFrom A axis n 0 ⟨0, 1, 0⟩ =
      .ok ⟨A, A.shape, axis, A.shape, List.replicate A.shape.length 0, ⟨0, 1, 0⟩⟩ := by
    unfold Dist.viewFrom
    rw [pySet_of_pyGet _ _ _ h, pySet_zero _ _ rfl _ _ h]
    rfl
  rw [hv]
  rfl

example : pyGet [4, 3] (-1) = .ok 3 := rfl

/-- **C116** (names). The functions of `mpitools` itself are there with `mpi4py` and without. -/
theorem C116_names (mpi : Bool) (name : String) (h : name ∈ ownNames) : attr mpi name = .ok .own := by
  unfold attr
  rw [if_pos h]

example : "parallel_map" ∈ ownNames := by decide

/-! ### Where it is not so -/

/-- **C116** violated: names of `mpi4py.MPI` are not there, and `MPIArray.wrap` uses one. No array can be wrapped without `mpi4py`: with a valid axis it raises an
`AttributeError`. -/
theorem C116_wrap_violated (A : NArr α) (axis : Int) (n : Nat) (h : pyGet A.shape axis = .ok n) :
    wrap false A axis = .error .attributeError ∧ ∃ B, wrap true A axis = .ok B := by
  refine ⟨?_, _, C116_wrap_mpi A axis n h⟩
  unfold wrap
  rw [h]
  dsimp only
  rw [size_eq, rank_eq, splitLocal_one]
  rfl

/-- **C116** violated: so a distributed array cannot be copied without `mpi4py`. -/
theorem C116_copy_violated (A : MArr α) (n : Nat) (h : pyGet A.arr.shape A.axis = .ok n) :
    copy false A = .error .attributeError ∧ ∃ B, copy true A = .ok B ∧ B.arr = A.arr :=
  ⟨(C116_wrap_violated A.arr A.axis n h).1, _, C116_wrap_mpi A.arr A.axis n h, rfl⟩

example : pyGet (newArr false [4, 3] 1 (fun _ => (7 : Int))).arr.shape (newArr false [4, 3] 1 (fun _ => (7 : Int))).axis = .ok 3 := rfl

theorem commonComm_none (args : List UArg) (h : ∀ c, some c ∈ args → c = none) : commonComm args none = .ok none := by
  induction args with
  | nil => rfl
  | cons x l ih =>
    have ih' := ih fun c hc => h c (List.mem_cons_of_mem _ hc)
    cases x with
    | none => exact ih'
    | some c =>
      have : c = none := h c List.mem_cons_self
      subst this
      exact ih'

theorem commonComm_some (c : Comm) (args : List UArg) (h : ∀ x, some x ∈ args → x = some c) (acc : Option Comm)
    (hacc : acc = none ∨ acc = some c) :
    commonComm args acc = .ok (if acc = some c ∨ some (some c) ∈ args then some c else none) := by
  induction args generalizing acc with
  | nil => rcases hacc with rfl | rfl <;> simp [commonComm]
  | cons x l ih =>
    have ih' := ih fun y hy => h y (List.mem_cons_of_mem _ hy)
    cases x with
    | none =>
      rw [commonComm, ih' acc hacc]
      simp
    | some y =>
      have : y = some c := h y List.mem_cons_self
      subst this
      rcases hacc with rfl | rfl
      · rw [commonComm, ih' _ (.inr rfl)]
        simp
      · rw [commonComm, if_pos rfl, ih' _ (.inr rfl)]
        simp

/-- **C116** violated: there is no arithmetic on distributed arrays without `mpi4py`. Every universal function, called, reducing or accumulating, raises a
`RuntimeError`; with `mpi4py` on one process it goes on with the communicator of its arguments. -/
theorem C116_ufunc_violated (m : Method) (hm : m ≠ .other) (dist : List Bool) (hd : true ∈ dist) :
    ufuncComm m false (dist.map fun b => if b then some (world false) else none) = .error .runtimeError ∧
    ufuncComm m false (dist.map fun b => if b then some (world true) else none) = .ok ⟨0, 1, 0⟩ := by
  constructor
  · unfold ufuncComm
    rw [if_neg hm, if_neg (by simp), commonComm_none]
    intro c hc
    obtain ⟨b, -, hb⟩ := List.mem_map.1 hc
    cases b
    · cases hb
    · simp only [if_true, Option.some.injEq] at hb
      exact hb.symm
  · unfold ufuncComm
    rw [if_neg hm, if_neg (by simp), commonComm_some ⟨0, 1, 0⟩ _ _ none (.inl rfl)]
    · rw [if_pos]
      exact .inr (List.mem_map.2 ⟨true, hd, rfl⟩)
    · intro c hc
      obtain ⟨b, -, hb⟩ := List.mem_map.1 hc
      cases b
      · cases hb
      · simp only [if_true, Option.some.injEq] at hb
        exact hb.symm

example : ufuncComm .call false [some (world false), none] = .error .runtimeError := (C116_ufunc_violated .call (by decide) [true, false] (by decide)).1

/-- **C116** violated: `allreduce` of an array with one element. -/
theorem C116_allreduce_violated (A : MArr α) (h : A.lshape = [1]) :
    allreduce false A = .error .attributeError ∧ allreduce true A = .ok (A.arr.val [0]) := by
  refine ⟨rfl, ?_⟩
  unfold allreduce
  simp [world, h]

example : (newArr false [1] 0 (fun _ => (7 : Int))).lshape = [1] := rfl

/-- **C116** violated: nothing can be read from an HDF5 file into a distributed array without `mpi4py`. Whenever reading succeeds with it, it is an
`AttributeError` without it. -/
theorem C116_read_violated (io : Io) (junk : List Nat → α) (G : NArr α) (sel : Option (List FileSel)) (axis : Int) (A : Seen α)
    (h : fromFile true .hdf5 io junk G sel axis = .ok A) : fromFile false .hdf5 io junk G sel axis = .error .attributeError := by
  unfold fromFile at h ⊢
  dsimp only at h ⊢
  split at h
  · cases h
  · rename_i hax
    rw [if_neg hax]
    split at h
    · cases h
    · rename_i gshape hg
      simp only [newArr_eq] at h ⊢
      split at h
      · split at h
        · cases h
        · rfl
      · cases h

/-- Every second row of a table of four rows can be read on one process with `mpi4py`. -/
example : ∃ A, fromFile true .hdf5 ⟨false, 8, 80, 1⟩ (fun _ => 99) ⟨[4, 3], fun i => 10 * i.getD 0 0 + i.getD 1 0⟩
    (some [.slc ⟨none, none, some 2⟩]) 0 = .ok A ∧ A.arr.shape = [2, 3] ∧ A.arr.val [1, 2] = 22 := ⟨_, rfl, rfl, rfl⟩

/-- From Zarr also without it. -/
example : ∃ A, fromFile false .zarr ⟨false, 8, 80, 1⟩ (fun _ => 99) ⟨[4, 3], fun i => 10 * i.getD 0 0 + i.getD 1 0⟩
    (some [.slc ⟨none, none, some 2⟩]) 0 = .ok A ∧ A.arr.shape = [2, 3] ∧ A.arr.val [1, 2] = 22 := ⟨_, rfl, rfl, rfl⟩

/-- **C116** violated: an array distributed over another axis cannot be had without `mpi4py`; on one process it can. -/
theorem C116_redistribute_violated (d : Nat) (a b : Fin d) (h : a ≠ b) :
    Mpi.redistAxis d none (a : Nat) (b : Nat) = .ok ((a : Nat) : Int) ∧ Mpi.redistAxis d (some 1) (a : Nat) (b : Nat) = .ok ((b : Nat) : Int) := by
  refine ⟨rfl, ?_⟩
  have hne : ((a : Nat) : Int) ≠ (b : Nat) := fun e => h (Fin.ext (by omega))
  have hb := b.isLt
  simp [Mpi.redistAxis, Mpi.redistPlan, hne, Mpi.axisOf]

example : (0 : Fin 2) ≠ 1 := by decide

/-- **C116** violated: `allgather` of an array raises without `mpi4py`; on one process it returns the array. -/
theorem C116_gather_violated {d : Nat} (gs : Mpi.Idx d) (a : Fin d) (loc : Nat → Mpi.View d α) (hloc : (loc 0).shape = gs) (junk : Mpi.Idx d → α)
    (junkB : Nat → Mpi.Idx d → α) :
    Mpi.allgatherOn none gs a loc junk junkB = .error .attributeError ∧
    ∃ C, Mpi.allgatherOn (some 1) gs a loc junk junkB = .ok C ∧ Mpi.IsConcat (fun q => (loc q).arr) a 1 C := by
  refine ⟨rfl, Mpi.C05_allgather_layout gs a 1 (by omega) loc ?_ junk junkB⟩
  intro r hr
  have : r = 0 := by omega
  subst this
  rw [hloc]
  funext k
  unfold Mpi.upd
  split
  · rename_i hk
    subst hk
    simp [Mpi.blockLen, Nat.mod_one]
  · rfl

/-- **C116** violated: writing to an HDF5 file raises an `AttributeError` without `mpi4py`, after the dataset has been filled with zeros. What an existing dataset
held is lost. -/
theorem C116_write_violated (zero : α) (junk : List Nat → α) (fs : Store.Fs α) (p name : String) (create : Bool) (dtype : Nat) (A : MArr α)
    (f : Store.File α) (hf : fs p = some f) (d : Store.Dset α) (hd : f name = some d) (hs : d.arr.shape = A.gshape) (ht : d.dtype = dtype) :
    (toFileAlone zero junk fs (.path p) create name dtype .hdf5 A).2 = some .attributeError ∧
    ∃ d', Store.look (toFileAlone zero junk fs (.path p) create name dtype .hdf5 A).1 p name = some d' ∧ ∀ i, d'.arr.val i = zero := by
  have hc : Store.serialCreate zero junk fs p create name dtype A =
      .ok (f.put name { d with arr := ⟨d.arr.shape, fun _ => zero⟩ }) := by
    simp [Store.serialCreate, Store.openFile, hf, Store.createOrGet, hd, hs, ht]
  have e : toFileAlone zero junk fs (.path p) create name dtype .hdf5 A =
      (fs.put p (f.put name { d with arr := ⟨d.arr.shape, fun _ => zero⟩ }), some .attributeError) := by
    simp only [toFileAlone, hc]
  rw [e]
  refine ⟨rfl, { d with arr := ⟨d.arr.shape, fun _ => zero⟩ }, ?_, fun _ => rfl⟩
  simp [Store.look, Store.Fs.put, Store.File.put]

/-- A dataset of two elements that is there before. -/
def oldSet : Store.Dset Nat := ⟨⟨[2], fun i => 5 + i.getD 0 0⟩, 3, none, none, none⟩

example : oldSet.arr.shape = (newArr false [2] 0 (fun _ => 9)).gshape ∧ oldSet.dtype = 3 := by decide

/-- **C116** violated: nothing is written to a Zarr file without `mpi4py`. -/
theorem C116_write_zarr_violated (zero : α) (junk : List Nat → α) (fs : Store.Fs α) (p name : String) (create : Bool) (dtype : Nat) (A : MArr α) :
    toFileAlone zero junk fs (.path p) create name dtype .zarr A = (fs, some .attributeError) := rfl

/-- **C116** violated: nothing is written to a file that is open without `mpi4py` either. A file of `h5py`, or a Zarr file without a synchronizer, is
refused; a Zarr file with one is an `AttributeError`. -/
theorem C116_write_open_violated (zero : α) (junk : List Nat → α) (fs : Store.Fs α) (t : Store.Target) (ht : ∀ p, t ≠ .path p) (fmt : Format) (name : String)
    (create : Bool) (dtype : Nat) (A : MArr α) :
    (toFileAlone zero junk fs t create name dtype fmt A).1 = fs ∧
    (toFileAlone zero junk fs t create name dtype fmt A).2 =
      some (match fmt, t with | .zarr, .handle _ true => .attributeError | _, _ => .valueError) := by
  match fmt, t, ht with
  | _, .path p, ht => exact absurd rfl (ht p)
  | .hdf5, .handle _ _, _ => exact ⟨rfl, rfl⟩
  | .zarr, .handle _ false, _ => exact ⟨rfl, rfl⟩
  | .zarr, .handle _ true, _ => exact ⟨rfl, rfl⟩

example : ∀ p, (Store.Target.handle "f" true) ≠ .path p := by intro p h; cases h

end Verif.Serial
