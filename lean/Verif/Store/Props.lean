import Verif.Store.Lemmas

/-!
# Properties of writing a distributed array to a file (C76)
-/
namespace Verif.Store

open Verif.Dist (NArr MArr Comm IsBlock)
open Verif.Slice (FileSel PySlice)
open Verif.Reshape (InShape)
open Verif.Mpi (blockStart blockLen)
open Verif.Load (Io Format Transferable Covering PicksAll Selected)

variable {α : Type}

/-- **C76** (HDF5, parallel). Writing a distributed array stores it: the file then has the whole array under the name given, whatever axis it is distributed over, however
the transfers are divided and in whatever order they take place; a new dataset has the chunks and compression asked for, one that is there must have the same shape
and type; nothing else in the file or in other files changes. The file is opened here for all processes there are, and compression needs data on every process. -/
theorem C76_hdf5_partial (E : Env) (hmpi : E.mpi = true) (hp : 0 < E.p) (hq : 0 < E.q) (zero : α) (junk : List Nat → α) (order : List Act → List Act)
    (hord : ∀ l, (order l).Perm l) (fs : Fs α) (t : Target) (create : Bool) (name : String) (dtype : Nat) (o : Opts) (G : NArr α) (a size ident : Nat) (hs : 0 < size)
    (arrs moved : Nat → MArr α) (hA : ∀ r < size, IsBlock G a ⟨ident, size, r⟩ (arrs r)) (par : Bool) (hopen : Opens E fs create size t par)
    (hfit : Fits fs t.name name G.shape dtype) (htr : Transferable ⟨par, E.item, E.p, E.q⟩ G.shape a size)
    (hcomp : o.comp = none ∨ (par = true ∧ ∀ n, G.shape[a]? = some n → size ≤ n)) :
    ∃ fs', toHdf5 E zero junk order fs t create name dtype o arrs moved size = (fs', none) ∧ Stored t.name name G dtype o fs fs' := by
  obtain ⟨f, f1, f2⟩ := openH5_ok E fs t create size par hopen
  obtain ⟨l, l1, l2, l3⟩ := plan_covers ⟨par, E.item, E.p, E.q⟩ hp hq G a size hs ident arrs hA htr
  have hfit' : ∀ d, f name = some d → d.arr.shape = G.shape ∧ d.dtype = dtype := by
    intro d hd
    apply hfit d
    rw [look_of fs t.name f f2]
    exact hd
  obtain ⟨f', d, c1, c2, c3, c4, c5, c6, c7⟩ := createOrGet_ok junk f name G.shape dtype o hfit'
  have hg0 : (arrs 0).gshape = G.shape := (hA 0 hs).gshape
  have hax : Dist.pyGet (arrs 0).gshape (arrs 0).axis = .ok (G.shape[a]'(hA 0 hs).lt) := by
    rw [hg0, (hA 0 hs).axis, Dist.pyGet_nat _ _ (hA 0 hs).lt]
  obtain ⟨f'', D, r1, r2, r3, r4, r5⟩ := runActs_ok name G a size ident arrs hA (order l) (fun x hx => l2 x ((hord l).mem_iff.1 hx)) f' d c2 c4
  have hres : toHdf5 E zero junk order fs t create name dtype o arrs moved size = (fs.put t.name f'', none) := by
    unfold toHdf5
    rw [if_neg (by simp [hmpi]), f1]
    simp only
    rw [l1]
    simp only
    rw [hg0, c1]
    simp only
    rw [← hg0, hax]
    simp only
    rw [if_neg, r1]
    rintro ⟨h1, h2⟩
    rcases hcomp with h | ⟨h3, h4⟩
    · exact h2 h
    · rw [h3] at h1
      have := h4 _ (List.getElem?_eq_getElem (hA 0 hs).lt)
      simp at h1
      omega
  refine ⟨_, hres, stored_of fs t.name name f f'' f2 G dtype o d D r2 (fun n hn => by rw [r3 n hn, c3 n hn]) ⟨r4, fun i hi => ?_⟩ c5 c6 c7⟩
  rw [r4] at hi
  obtain ⟨x, hx, hc⟩ := l3 i hi
  exact r5 i hi (.inr ⟨x, (hord l).mem_iff.2 hx, hc⟩)

/-- **C76** (HDF5 without parallel access). The processes write their rows in turn; the result is the same, except that chunks and compression are not used. -/
theorem C76_serial_partial (E : Env) (hmpi : E.mpi = false) (zero : α) (junk : List Nat → α) (order : List Act → List Act) (fs : Fs α) (p : String) (create : Bool) (name : String)
    (dtype : Nat) (o : Opts) (G : NArr α) (a size ident : Nat) (hs : 0 < size) (arrs moved : Nat → MArr α) (hA : ∀ r < size, IsBlock G a ⟨ident, size, r⟩ (arrs r))
    (hM : ∀ r < size, IsBlock G 0 ⟨ident, size, r⟩ (moved r)) (hopen : create = true ∨ fs p ≠ none) (hfit : Fits fs p name G.shape dtype) :
    ∃ fs', toHdf5 E zero junk order fs (.path p) create name dtype o arrs moved size = (fs', none) ∧ Stored p name G dtype ⟨none, none, none⟩ fs fs' := by
  obtain ⟨f, f1, f2⟩ := openFile_ok fs p create hopen
  have hfit' : ∀ d, f name = some d → d.arr.shape = G.shape ∧ d.dtype = dtype := by
    intro d hd
    apply hfit d
    rw [look_of fs p f f2]
    exact hd
  obtain ⟨f', d, c1, c2, c3, c4, c5, c6, c7⟩ := createOrGet_ok junk f name G.shape dtype ⟨none, none, none⟩ hfit'
  have hg0 : (arrs 0).gshape = G.shape := (hA 0 hs).gshape
  obtain ⟨f'', D, r1, r2, r3, r4, r5⟩ := serialAll_ok name G size ident moved hM (List.range size) (fun r hr => List.mem_range.1 hr)
    (f'.put name { d with arr := ⟨d.arr.shape, fun _ => zero⟩ }) { d with arr := ⟨d.arr.shape, fun _ => zero⟩ } (by simp [File.put]) c4
  have hcreate : serialCreate zero junk fs p create name dtype (arrs 0) = .ok (f'.put name { d with arr := ⟨d.arr.shape, fun _ => zero⟩ }) := by
    unfold serialCreate
    rw [f1]
    simp only
    rw [hg0, c1]
    simp only
    rw [c2]
  have hres : toHdf5 E zero junk order fs (.path p) create name dtype o arrs moved size = (fs.put p f'', none) := by
    unfold toHdf5
    rw [if_pos hmpi]
    simp only [toHdf5Serial]
    rw [hcreate]
    simp only
    rw [r1]
  refine ⟨_, hres, stored_of fs p name f f'' f2 G dtype _ d D r2 (fun n hn => ?_) ⟨r4, fun i hi => ?_⟩ c5 c6 c7⟩
  · rw [r3 n hn, ← c3 n hn]
    simp [File.put, hn]
  · rw [r4] at hi
    exact r5 i hi (.inr (cov_rows G size hs (hM 0 hs).lt i hi))

/-- **C76** (Zarr). -/
theorem C76_zarr (E : Env) (hp : 0 < E.p) (hq : 0 < E.q) (junk : List Nat → α) (order : List Act → List Act) (hord : ∀ l, (order l).Perm l) (fs : Fs α) (t : Target)
    (create : Bool) (name : String) (dtype : Nat) (o : Opts) (G : NArr α) (a size ident : Nat) (hs : 0 < size) (arrs : Nat → MArr α)
    (hA : ∀ r < size, IsBlock G a ⟨ident, size, r⟩ (arrs r))
    (hopen : (∃ p, t = .path p ∧ (create = true ∨ fs p ≠ none)) ∨ ∃ p, t = .handle p true ∧ fs p ≠ none) (hfit : Fits fs t.name name G.shape dtype) :
    ∃ fs', toZarr E junk order fs t create name dtype o arrs size = (fs', none) ∧ Stored t.name name G dtype o fs fs' := by
  obtain ⟨f, f1, f2⟩ : ∃ f, openFile fs t.name (match t with | .path _ => create | _ => false) = .ok f ∧ (fs t.name = some f ∨ (fs t.name = none ∧ f = fun _ => none)) := by
    rcases hopen with ⟨p, rfl, h⟩ | ⟨p, rfl, h⟩
    · exact openFile_ok fs p create h
    · exact openFile_ok fs p false (.inr h)
  obtain ⟨l, l1, l2, l3⟩ := plan_covers ⟨false, E.item, E.p, E.q⟩ hp hq G a size hs ident arrs hA (.inl rfl)
  have hfit' : ∀ d, f name = some d → d.arr.shape = G.shape ∧ d.dtype = dtype := by
    intro d hd
    apply hfit d
    rw [look_of fs t.name f f2]
    exact hd
  obtain ⟨f', d, c1, c2, c3, c4, c5, c6, c7⟩ := createOrGet_ok junk f name G.shape dtype o hfit'
  have hg0 : (arrs 0).gshape = G.shape := (hA 0 hs).gshape
  obtain ⟨f'', D, r1, r2, r3, r4, r5⟩ := runActs_ok name G a size ident arrs hA (order l) (fun x hx => l2 x ((hord l).mem_iff.1 hx)) f' d c2 c4
  have hres : toZarr E junk order fs t create name dtype o arrs size = (fs.put t.name f'', none) := by
    rcases hopen with ⟨p, rfl, h⟩ | ⟨p, rfl, h⟩
    all_goals
      unfold toZarr
      simp only at f1 ⊢
      rw [f1]
      simp only
      rw [l1]
      simp only
      rw [hg0, c1]
      simp only
      rw [r1]
  refine ⟨_, hres, stored_of fs t.name name f f'' f2 G dtype o d D r2 (fun n hn => by rw [r3 n hn, c3 n hn]) ⟨r4, fun i hi => ?_⟩ c5 c6 c7⟩
  rw [r4] at hi
  obtain ⟨x, hx, hc⟩ := l3 i hi
  exact r5 i hi (.inr ⟨x, (hord l).mem_iff.2 hx, hc⟩)

/-- **C76** (reading back). What has been stored is read back: with any selection, distributed over any axis and any number of processes, from either kind of file. -/
theorem C76_round_trip (p name : String) (G : NArr α) (dtype : Nat) (o : Opts) (fs fs' : Fs α) (hst : Stored p name G dtype o fs fs')
    (fmt : Format) (io : Io) (hp : 0 < io.p) (hq : 0 < io.q) (junk : List Nat → α) (sel : Option (List FileSel)) (es : List FileSel)
    (hes : Covering G.shape.length sel es) (pss : List (List Nat)) (hps : PicksAll G.shape es pss) (axis : Int) (a : Nat) (ha : Dist.Names G.shape.length axis a) (c : Comm)
    (hc : c.rank < c.size)
    (hlist : (fmt = .hdf5 ∧ es.countP Load.FileSel.isList ≤ 1 ∧ Transferable io (pss.map List.length) a c.size) ∨ (fmt = .zarr ∧ es.any Load.FileSel.isList = false))
    (R : NArr α) (hR : Selected G pss R) :
    ∃ d A, look fs' p name = some d ∧ Load.fromFile fmt io junk d.arr sel axis c = .ok A ∧ IsBlock R a c A := by
  obtain ⟨-, d, hd, ⟨hsh, hval⟩, -, -⟩ := hst
  have hR' : Selected d.arr pss R := by
    refine ⟨hR.shape, fun i i' hi h => ?_⟩
    rw [hR.elems i i' hi h, hval]
    obtain ⟨h1, h2, h3⟩ := hps
    rw [hsh]
    have hlen : i'.length = G.shape.length := by
      have := h.length_eq
      rw [List.length_zip, hi.length, hR.shape, List.length_map, Nat.min_self] at this
      omega
    apply Dist.inShape_of hlen
    intro k hk4 hk
    have hk1 : k < es.length := by omega
    have hk2 : k < pss.length := by omega
    have hk3 : k < i.length := by rw [hi.length, hR.shape, List.length_map]; exact hk2
    have hg : pss[k][i[k]]? = some i'[k] := by
      have := h.get (i := k) (by rw [List.length_zip]; omega) hk4
      simpa using this
    have := Load.picks_lt _ _ _ (h3 k _ _ _ (List.getElem?_eq_getElem hk) (List.getElem?_eq_getElem hk1) (List.getElem?_eq_getElem hk2)) _ (List.mem_of_getElem? hg)
    exact this
  obtain ⟨A, h1, h2⟩ := Load.C10_nd_read_partial fmt io hp hq junk d.arr sel es (by rw [hsh]; exact hes) pss (by rw [hsh]; exact hps) axis a
    (by rw [hsh]; exact ha) c hc hlist R hR'
  exact ⟨d, A, hd, h1, h2⟩

/-- **C76** (choice of format and options). `to_file` writes the kind of file asked for. With no options given, those set on the array are used; if none are set, those given. -/
theorem C76_to_file_partial (E : Env) (hmpi : E.mpi = true) (hp : 0 < E.p) (hq : 0 < E.q) (zero : α) (junk : List Nat → α) (order : List Act → List Act)
    (hord : ∀ l, (order l).Perm l) (fs : Fs α) (t : Target) (create : Bool) (name : String) (dtype : Nat) (given : Opts) (own : Option Opts) (o : Opts)
    (ho : (own = none ∧ o = given) ∨ (given = ⟨none, none, none⟩ ∧ own = some o)) (fmt : Format) (G : NArr α) (a size ident : Nat) (hs : 0 < size)
    (arrs moved : Nat → MArr α) (hA : ∀ r < size, IsBlock G a ⟨ident, size, r⟩ (arrs r)) (hfit : Fits fs t.name name G.shape dtype)
    (hfmt : (fmt = .hdf5 ∧ ∃ par, Opens E fs create size t par ∧ Transferable ⟨par, E.item, E.p, E.q⟩ G.shape a size ∧
        (o.comp = none ∨ (par = true ∧ ∀ n, G.shape[a]? = some n → size ≤ n))) ∨
      (fmt = .zarr ∧ ((∃ p, t = .path p ∧ (create = true ∨ fs p ≠ none)) ∨ ∃ p, t = .handle p true ∧ fs p ≠ none))) :
    ∃ fs', toFile E zero junk order fs t create name dtype given own fmt arrs moved size = (fs', none) ∧ Stored t.name name G dtype o fs fs' := by
  have hfill : fillOpts given own = o := by
    rcases ho with ⟨rfl, rfl⟩ | ⟨rfl, rfl⟩
    · rfl
    · cases o; rfl
  rcases hfmt with ⟨rfl, par, h1, h2, h3⟩ | ⟨rfl, h1⟩
  · simp only [toFile, hfill]
    exact C76_hdf5_partial E hmpi hp hq zero junk order hord fs t create name dtype o G a size ident hs arrs moved hA par h1 hfit h2 h3
  · simp only [toFile, hfill]
    exact C76_zarr E hp hq junk order hord fs t create name dtype o G a size ident hs arrs hA h1 hfit

/-- No dataset of any file is different. -/
def NothingWritten (fs fs' : Fs α) : Prop := ∀ q n, look fs' q n = look fs q n

theorem put_open (fs : Fs α) (p : String) (f : File α) (hf : fs p = some f ∨ (fs p = none ∧ f = fun _ => none)) : NothingWritten fs (fs.put p f) := by
  intro q n
  by_cases hq : q = p
  · subst hq
    rw [look_of fs q f hf]
    simp [look, Fs.put]
  · simp [look, Fs.put, hq]

theorem createOrGet_refuses (junk : List Nat → α) (f : File α) (name : String) (shape : List Nat) (dtype : Nat) (o : Opts) (d : Dset α) (hd : f name = some d)
    (h : d.arr.shape ≠ shape ∨ d.dtype ≠ dtype) : createOrGet junk f name shape dtype o = .error (.py .runtimeError) := by
  unfold createOrGet
  rw [hd]
  simp only
  by_cases h1 : d.arr.shape = shape
  · rw [if_neg (by simp [h1])]
    rcases h with h | h
    · exact absurd h1 h
    · rw [if_pos h]
  · rw [if_pos h1]

/-- **C76** (what is refused). A dataset of that name with another shape or type is a `RuntimeError`, and no dataset in any file changes; so it is, for lack of a file, an
`OSError` to write to one that does not exist without asking for a new one. -/
theorem C76_refused (E : Env) (hp : 0 < E.p) (hq : 0 < E.q) (zero : α) (junk : List Nat → α) (order : List Act → List Act) (fs : Fs α) (p : String) (create : Bool)
    (name : String) (dtype : Nat) (given : Opts) (own : Option Opts) (fmt : Format) (G : NArr α) (a size ident : Nat) (hs : 0 < size) (hw : size = E.world)
    (arrs moved : Nat → MArr α) (hA : ∀ r < size, IsBlock G a ⟨ident, size, r⟩ (arrs r)) (htr : Transferable ⟨true, E.item, E.p, E.q⟩ G.shape a size) :
    ((∃ d, look fs p name = some d ∧ (d.arr.shape ≠ G.shape ∨ d.dtype ≠ dtype)) →
      ∃ fs', toFile E zero junk order fs (.path p) create name dtype given own fmt arrs moved size = (fs', some (.py .runtimeError)) ∧ NothingWritten fs fs') ∧
    ((fs p = none ∧ create = false) →
      toFile E zero junk order fs (.path p) create name dtype given own fmt arrs moved size = (fs, some .osError)) := by
  have hg0 : (arrs 0).gshape = G.shape := (hA 0 hs).gshape
  constructor
  · rintro ⟨d, hd, hne⟩
    have hex : fs p ≠ none := by
      intro e
      simp [look, e] at hd
    obtain ⟨f, f1, f2⟩ := openFile_ok fs p create (.inr hex)
    have hfd : f name = some d := by rw [← look_of fs p f f2]; exact hd
    have hcr := fun o => createOrGet_refuses junk f name G.shape dtype o d hfd hne
    have hself : NothingWritten fs fs := fun _ _ => rfl
    cases fmt with
    | hdf5 =>
      simp only [toFile]
      unfold toHdf5
      by_cases hm : E.mpi = false
      · rw [if_pos hm]
        simp only [toHdf5Serial]
        have : serialCreate zero junk fs p create name dtype (arrs 0) = .error (.py .runtimeError) := by
          unfold serialCreate
          rw [f1]
          simp only
          rw [hg0, hcr]
        rw [this]
        exact ⟨_, rfl, hself⟩
      · rw [if_neg hm]
        simp only [openH5]
        rw [if_neg (by simp [hw]), f1]
        simp only
        obtain ⟨l, l1, -, -⟩ := plan_covers ⟨true, E.item, E.p, E.q⟩ hp hq G a size hs ident arrs hA htr
        rw [l1]
        simp only
        rw [hg0, hcr]
        exact ⟨_, rfl, put_open fs p f f2⟩
    | zarr =>
      simp only [toFile]
      unfold toZarr
      simp only [Target.name]
      rw [f1]
      simp only
      obtain ⟨l, l1, -, -⟩ := plan_covers ⟨false, E.item, E.p, E.q⟩ hp hq G a size hs ident arrs hA (.inl rfl)
      rw [l1]
      simp only
      rw [hg0, hcr]
      exact ⟨_, rfl, put_open fs p f f2⟩
  · rintro ⟨h1, rfl⟩
    have hop : openFile fs p false = .error .osError := by
      unfold openFile
      rw [h1]
      rfl
    cases fmt with
    | hdf5 =>
      simp only [toFile]
      unfold toHdf5
      by_cases hm : E.mpi = false
      · rw [if_pos hm]
        simp only [toHdf5Serial]
        have : serialCreate zero junk fs p false name dtype (arrs 0) = .error .osError := by
          unfold serialCreate
          rw [hop]
        rw [this]
      · rw [if_neg hm]
        simp only [openH5]
        rw [if_neg (by simp [hw]), hop]
    | zarr =>
      simp only [toFile]
      unfold toZarr
      simp only [Target.name]
      rw [hop]

/-- **C76** (open files). An open file without parallel access cannot be written by several processes: without parallel HDF5, and for Zarr without synchronizer, it is a `ValueError`. -/
theorem C76_handles (E : Env) (zero : α) (junk : List Nat → α) (order : List Act → List Act) (fs : Fs α) (p : String) (create b : Bool) (name : String) (dtype : Nat)
    (given : Opts) (own : Option Opts) (arrs moved : Nat → MArr α) (size : Nat) :
    (E.mpi = false → toFile E zero junk order fs (.handle p b) create name dtype given own .hdf5 arrs moved size = (fs, some (.py .valueError))) ∧
    toFile E zero junk order fs (.handle p false) create name dtype given own .zarr arrs moved size = (fs, some (.py .valueError)) := by
  constructor
  · intro h
    simp only [toFile, toHdf5]
    rw [if_pos h]
  · rfl

/-! ### A case: three axes, the middle one distributed over two processes -/

/-- The blocks of an array. -/
def blocks (G : NArr α) (a size : Nat) (r : Nat) : MArr α :=
  let n := G.shape.getD a 0
  let s := G.shape.set a (blockLen n size r)
  ⟨⟨s, fun i => G.val (i.modify a (· + blockStart n size r))⟩, G.shape, a, s, (List.replicate G.shape.length 0).set a (blockStart n size r), ⟨0, size, r⟩⟩

theorem blocks_ok (G : NArr α) (a size : Nat) (ha : a < G.shape.length) (r : Nat) (hr : r < size) : IsBlock G a ⟨0, size, r⟩ (blocks G a size r) :=
  ⟨ha, hr, rfl, rfl, rfl, rfl, rfl, rfl, fun _ _ => rfl⟩

/-- Shape `(3, 5, 2)`; the element at `(x, y, z)` is `100 x + 10 y + z`. -/
def box : NArr Nat := ⟨[3, 5, 2], fun i => 100 * i.getD 0 0 + 10 * i.getD 1 0 + i.getD 2 0⟩

/-- Transfers of up to 80 bytes; the blocks have up to 144. -/
def env (mpi : Bool) : Env := ⟨mpi, 2, 8, 80, 1⟩

/-- A file with another dataset. -/
def before : Fs Nat := fun p => if p = "f.h5" then some (fun n => if n = "old" then some ⟨⟨[2], fun i => 7 + i.getD 0 0⟩, 1, none, none, none⟩ else none) else none

/-- What can be seen of a dataset, and the exception. -/
structure Seen where
  err : Option Err
  shape : Option (List Nat)
  dtype : Option Nat
  chunks : Option (List Nat)
  comp : Option Nat
  vals : List Nat
  deriving DecidableEq, Repr

def seen (r : Fs Nat × Option Err) (p n : String) (is : List (List Nat)) : Seen :=
  match look r.1 p n with
  | none => ⟨r.2, none, none, none, none, []⟩
  | some d => ⟨r.2, some d.arr.shape, some d.dtype, d.chunks, d.comp, is.map d.arr.val⟩

def some5 : List (List Nat) := [[0, 0, 0], [2, 4, 1], [1, 2, 0], [1, 3, 1], [0, 2, 1]]

example : (planAll ⟨true, 8, 80, 1⟩ (blocks box 1 2) [0, 1]).toOption.map List.length = some 6 := by decide +kernel
example : seen (toHdf5 (env true) 0 (fun _ => 9) List.reverse before (.path "f.h5") false "new" 3 ⟨some [1, 5, 2], some 4, none⟩ (blocks box 1 2) (blocks box 0 2) 2)
    "f.h5" "new" some5 = ⟨none, some [3, 5, 2], some 3, some [1, 5, 2], some 4, [0, 241, 120, 131, 21]⟩ := by decide +kernel
example : seen (toHdf5 (env true) 0 (fun _ => 9) List.reverse before (.path "f.h5") false "new" 3 ⟨some [1, 5, 2], some 4, none⟩ (blocks box 1 2) (blocks box 0 2) 2)
    "f.h5" "old" [[0], [1]] = ⟨none, some [2], some 1, none, none, [7, 8]⟩ := by decide +kernel
example : seen (toHdf5 (env false) 0 (fun _ => 9) id before (.path "g.h5") true "new" 3 ⟨some [1, 5, 2], some 4, none⟩ (blocks box 1 2) (blocks box 0 2) 2)
    "g.h5" "new" some5 = ⟨none, some [3, 5, 2], some 3, none, none, [0, 241, 120, 131, 21]⟩ := by decide +kernel
example : seen (toZarr (env true) (fun _ => 9) List.reverse before (.handle "f.h5" true) false "new" 3 ⟨none, some 4, none⟩ (blocks box 2 2) 2)
    "f.h5" "new" some5 = ⟨none, some [3, 5, 2], some 3, none, some 4, [0, 241, 120, 131, 21]⟩ := by decide +kernel
example : seen (toHdf5 (env true) 0 (fun _ => 9) id before (.path "f.h5") true "old" 1 ⟨none, none, none⟩ (blocks box 1 2) (blocks box 0 2) 2)
    "f.h5" "old" [[0], [1]] = ⟨some (.py .runtimeError), some [2], some 1, none, none, [7, 8]⟩ := by decide +kernel
example : Transferable ⟨true, 8, 80, 1⟩ box.shape 1 2 := by
  refine .inr ⟨⟨0, by omega, by decide⟩, fun m h1 h2 => .inr ⟨0, 3, by omega, rfl, ?_⟩⟩
  apply h2
  intro r hr
  have : r = 0 ∨ r = 1 := by omega
  rcases this with rfl | rfl <;> decide
example : Opens (env true) before false 2 (.path "f.h5") true ∧ Fits before "f.h5" "new" box.shape 3 ∧ (∀ n, box.shape[1]? = some n → 2 ≤ n) := by
  refine ⟨⟨rfl, rfl, .inr (by simp [before])⟩, fun d h => by simp [look, before] at h, fun n h => ?_⟩
  simp [box] at h
  omega

/-! ### Where it is not so -/

/-- **C76** violated: the communicator of the array is passed on as the argument that tells whether to open for parallel access. The file is opened by all processes there
are: an array distributed over some of them cannot be written, the call does not return. -/
theorem C76_communicator_violated (E : Env) (hmpi : E.mpi = true) (zero : α) (junk : List Nat → α) (order : List Act → List Act) (fs : Fs α) (p : String) (create : Bool)
    (name : String) (dtype : Nat) (o : Opts) (arrs moved : Nat → MArr α) (size : Nat) (h : size ≠ E.world) :
    toHdf5 E zero junk order fs (.path p) create name dtype o arrs moved size = (fs, some .hang) := by
  unfold toHdf5
  rw [if_neg (by simp [hmpi])]
  simp only [openH5]
  rw [if_pos h]

/-- **C76** violated: compression is refused when some process has no data, but the dataset has been created by then. It stays in the file, with no data. -/
theorem C76_leftover_violated :
    seen (toHdf5 (env true) 0 (fun _ => 9) id before (.path "f.h5") false "new" 3 ⟨some [1], some 4, none⟩ (blocks ⟨[1], fun _ => 5⟩ 0 2) (blocks ⟨[1], fun _ => 5⟩ 0 2) 2)
      "f.h5" "new" [[0]] = ⟨some (.py .runtimeError), some [1], some 3, some [1], some 4, [9]⟩ := by decide +kernel

/-- **C76** violated: without parallel HDF5, chunks and compression are ignored. -/
theorem C76_serial_options_violated :
    seen (toHdf5 (env false) 0 (fun _ => 9) id before (.path "f.h5") false "new" 3 ⟨some [1, 5, 2], some 4, none⟩ (blocks box 0 2) (blocks box 0 2) 2)
      "f.h5" "new" [[2, 4, 1]] = ⟨none, some [3, 5, 2], some 3, none, none, [241]⟩ := by decide +kernel

/-- The blocks of an array distributed over its last axis, given as `-1`. -/
def lastBlocks (G : NArr α) (size : Nat) (r : Nat) : MArr α := { blocks G (G.shape.length - 1) size r with axis := -1 }

/-- **C76** violated: an array may be distributed over axis `-1`, but then it cannot be written: the bounds along that axis are used for the first axis. -/
theorem C76_negative_axis_violated :
    seen (toHdf5 { env true with world := 1 } 0 (fun _ => 9) id before (.path "f.h5") false "new" 3 ⟨none, none, none⟩ (lastBlocks ⟨[3, 2], fun i => 10 * i.getD 0 0 + i.getD 1 0⟩ 1)
      (blocks box 0 1) 1) "f.h5" "new" [[0, 0], [2, 1]] = ⟨some (.py .typeError), some [3, 2], some 3, none, none, [9, 9]⟩ := by decide +kernel

/-- **C76** violated: options are filled in one by one. A filter given by the caller is combined with the options for another filter that are set on the array. -/
theorem C76_options_violated : fillOpts ⟨none, some 1, none⟩ (some ⟨none, some 2, some 20⟩) = ⟨none, some 1, some 20⟩ := rfl

end Verif.Store
