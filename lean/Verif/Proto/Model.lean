import Verif.Dist.Model

/-!
# Model of container construction

Models `ContainerPrototype.__init__` (`caput/containers/_core.py:351-465`) and `add_dataset` (467-543)
on one process, with `create_index_map` (156-158), the parts of `MemGroup.create_dataset`
(`caput/memdata/_memh5.py:725-900`) they reach, `copyattrs` (2341-2427) between objects in memory, and
`MPIArray.__new__` (`caput/mpiarray.py:597-629`).

Dictionaries are functions from names. Left out: `data_group` (with it the call returns at line 386),
chunks and compression, an axis given as something else than an integer, an array, a list or `None`.
-/
namespace Verif.Proto

open Verif.Dist (NArr MArr Comm)

inductive PyErr where
  | runtimeError
  | attributeError
  | indexError
  | valueError
  | keyError
  | typeError
  deriving DecidableEq, Repr

/-- An entry of `axes` in a specification: the name of an axis, or a length. -/
inductive AxisRef where
  | name (s : String)
  | size (n : Nat)
  deriving DecidableEq, Repr

/-- What `np.array(axes)` (line 541) makes of it. -/
def AxisRef.label : AxisRef → String
  | .name s => s
  | .size n => toString n

/-- The specification of one dataset. `Ty` stands for element types. -/
structure DSpec (Ty : Type) where
  axes : List AxisRef
  ty : Ty
  initialise : Bool
  distributed : Option Bool
  distAxis : Option AxisRef

/-- The values along an axis, and the memory they are in: `none` if it was allocated by the constructor,
otherwise the number of an array that somebody else holds. -/
structure AxisMap (β : Type) where
  vals : List β
  buf : Option Nat

/-- An axis given to the constructor. -/
inductive AxisArg (β : Type) where
  | int (n : Int)
  | arr (m : AxisMap β)
  | list (l : List β)
  | none

/-- Data on this process: the same array on all processes, or a distributed array. -/
inductive Data (α : Type) where
  | common (A : NArr α)
  | dist (A : MArr α)

/-- The array in the memory of this process. -/
def Data.loc {α : Type} : Data α → NArr α
  | .common A => A
  | .dist A => A.arr

/-- A dataset: its data, its attribute "axis" if it has one, and the other attributes. -/
structure Dset (α V : Type) where
  data : Data α
  axis : Option (List String)
  attrs : String → Option V

/-- A container. -/
structure Box (α β V : Type) where
  maps : String → Option (AxisMap β)
  mapAttrs : String → String → Option V
  dsets : String → Option (Dset α V)
  attrs : String → Option V

/-- An empty container (`super().__init__`, line 379). -/
def Box.empty {α β V : Type} : Box α β V :=
  { maps := fun _ => none, mapAttrs := fun _ _ => none, dsets := fun _ => none, attrs := fun _ => none }

/-- What the code takes from its surroundings: the zero of arrays, the contents of memory that was not
set, conversion to an element type, the integers as values along an axis, what `copyattrs` does to a
value (`_map_json` and `.item()`), truth of a value, and the path of the class. -/
structure Env (α β V Ty : Type) where
  zero : α
  junk : String → List Nat → α
  cast : Ty → α → α
  lab : Nat → β
  conv : V → V
  truthy : V → Bool
  clspath : V

/-- The arguments. A keyword that is not given is `none`. -/
structure Args (α β V : Type) where
  kw : String → Option (AxisArg β)
  copyFrom : Option (Box α β V)
  axesFrom : Option (Option (Box α β V))
  attrsFrom : Option (Option (Box α β V))
  dsetsFrom : Option (Option (Box α β V))
  distributed : Bool
  comm : Comm
  skip : Bool

variable {α β V Ty : Type}

/-- Lines 353-356: `kwargs.pop("axes_from", copy_from)`. -/
def Args.axesSrc (a : Args α β V) : Option (Box α β V) := a.axesFrom.getD a.copyFrom
def Args.attrsSrc (a : Args α β V) : Option (Box α β V) := a.attrsFrom.getD a.copyFrom
def Args.dsetsSrc (a : Args α β V) : Option (Box α β V) := a.dsetsFrom.getD a.copyFrom

/-- Set an entry of a dictionary. -/
def put {γ : Type} (d : String → Option γ) (k : String) (v : γ) : String → Option γ :=
  fun k' => if k' = k then some v else d k'

/-- `copyattrs(src, dst)`. -/
def copyattrs (E : Env α β V Ty) (src dst : String → Option V) : String → Option V :=
  fun k => match src k with
    | some v => some (E.conv v)
    | none => dst k

/-- Lines 389-414: one pass of the loop over the axes. `create_dataset` uses the given array itself
(`_memh5.py:806-868`); it asks a list for its `shape`. -/
def addAxis (E : Env α β V Ty) (a : Args α β V) (b : Box α β V) (axis : String) : Except PyErr (Box α β V) :=
  match a.kw axis with
  | some (.int n) => .ok { b with maps := put b.maps axis ⟨(List.range n.toNat).map E.lab, none⟩ }
  | some (.arr m) => .ok { b with maps := put b.maps axis m }
  | some (.list _) => .error .attributeError
  | some .none => .error .runtimeError
  | none =>
    match a.axesSrc with
    | none => .error .runtimeError
    | some src =>
      match src.maps axis with
      | none => .error .runtimeError
      | some m => .ok
        { b with
          maps := put b.maps axis m
          mapAttrs := fun ax => if ax = axis then copyattrs E (src.mapAttrs axis) (b.mapAttrs axis) else b.mapAttrs ax }

/-- Lines 505-514: the length along an axis. -/
def axisLen (b : Box α β V) : AxisRef → Except PyErr Nat
  | .size n => .ok n
  | .name s =>
    match b.maps s with
    | some m => .ok m.vals.length
    | none => .error .runtimeError

/-- `MPIArray.__new__` (mpiarray.py:597-629), the memory not being set. `axis` is an index into `shape`. -/
def newMArr (shape : List Nat) (axis : Nat) (c : Comm) (junk : List Nat → α) : MArr α :=
  let n := shape.getD axis 0
  let num := match Split.splitLocal n c.size c.rank with
    | .ok x => x.1
    | .error _ => 0
  { arr := ⟨shape.set axis num, junk⟩, gshape := shape, axis := axis, lshape := shape.set axis num,
    loff := (List.replicate shape.length 0).set axis (Dist.localStart n c), comm := c }

/-- Lines 516-520: the distributed axis. -/
def distAxisOf (d : DSpec Ty) : Except PyErr Nat :=
  match d.distAxis.or d.axes.head? with
  | none => .error .indexError
  | some x =>
    match d.axes.idxOf? x with
    | some k => .ok k
    | none => .error .valueError

/-- Lines 467-543 `add_dataset`. -/
def addDataset (E : Env α β V Ty) (a : Args α β V) (b : Box α β V) (name : String) (d : DSpec Ty) :
    Except PyErr (Box α β V) := do
  let shape ← d.axes.mapM (axisLen b)
  let k ← distAxisOf d
  let data := if a.distributed && d.distributed.getD true then
      Data.dist (newMArr shape k a.comm (E.junk name))
    else Data.common ⟨shape, fun _ => E.zero⟩
  pure { b with dsets := put b.dsets name ⟨data, some (d.axes.map AxisRef.label), fun _ => none⟩ }

/-- `dst[...] = src` for `numpy` arrays: the source is broadcast to the shape of the destination; leading
axes of length one that the destination does not have are ignored. -/
def npAssign (f : α → α) (dst src : NArr α) : Except PyErr (NArr α) :=
  let k := src.shape.length - dst.shape.length
  if (src.shape.take k).all (· == 1) ∧ Dist.bcast [src.shape.drop k, dst.shape] = some dst.shape then
    .ok ⟨dst.shape, fun i => f (src.val (List.replicate k 0 ++ Dist.bidx (src.shape.drop k) i))⟩
  else .error .valueError

/-- Line 444: `self[name][:] = source_dset[:]`. The index needs an axis. Of a distributed array `[:]` is
the local array (C08); a process whose block is empty assigns nothing (mpiarray.py:406-414). -/
def assignAll (f : α → α) (dst : Data α) (src : Data α) : Except PyErr (Data α) :=
  if src.loc.shape = [] then .error .indexError
  else
    match dst with
    | .common D =>
      if D.shape = [] then .error .indexError
      else
        match npAssign f D src.loc with
        | .ok A => .ok (.common A)
        | .error e => .error e
    | .dist D =>
      if D.arr.shape.getD D.axis.toNat 0 = 0 then .ok (.dist D)
      else
        match npAssign f D.arr src.loc with
        | .ok A => .ok (.dist { D with arr := A })
        | .error e => .error e

/-- Lines 441-442: the dataset is created if needed. -/
def ensureDset (E : Env α β V Ty) (a : Args α β V) (b : Box α β V) (nd : String × DSpec Ty) :
    Except PyErr (Box α β V) :=
  if (b.dsets nd.1).isNone then addDataset E a b nd.1 nd.2 else .ok b

/-- Line 444. -/
def fillDset (E : Env α β V Ty) (nd : String × DSpec Ty) (sd : Dset α V) (b : Box α β V) :
    Except PyErr (Box α β V) :=
  match b.dsets nd.1 with
  | none => .error .keyError
  | some dd =>
    match assignAll (E.cast nd.2.ty) dd.data sd.data with
    | .error e => .error e
    | .ok x => .ok { b with dsets := put b.dsets nd.1 { dd with data := x } }

/-- Lines 427-444: one pass of the loop over the datasets. `changed` are the axes given explicitly. -/
def copyDset (E : Env α β V Ty) (a : Args α β V) (changed : List String) (src : Box α β V) (b : Box α β V)
    (nd : String × DSpec Ty) : Except PyErr (Box α β V) :=
  match src.dsets nd.1 with
  | none => .ok b
  | some sd =>
    match sd.axis with
    | none => .error .keyError
    | some axs =>
      if axs.any (changed.contains ·) then .ok b
      else
        match ensureDset E a b nd with
        | .error e => .error e
        | .ok b' => fillDset E nd sd b'

/-- Lines 448-465: the attributes. -/
def copyAttrs (E : Env α β V Ty) (spec : List (String × DSpec Ty)) (src b : Box α β V) : Box α β V :=
  let root := copyattrs E src.attrs b.attrs
  { b with
    attrs := match root "__memh5_subclass" with
      | some v => if E.truthy v then put root "__memh5_subclass" E.clspath else root
      | none => root
    dsets := fun name =>
      if (spec.map (·.1)).contains name then
        match b.dsets name, src.dsets name with
        | some d, some s => some { d with attrs := copyattrs E s.attrs d.attrs }
        | x, _ => x
      else b.dsets name }

/-- Lines 416-420: the datasets to be initialised. -/
def initDsets (E : Env α β V Ty) (spec : List (String × DSpec Ty)) (a : Args α β V) (b : Box α β V) :
    Except PyErr (Box α β V) :=
  if a.skip then .ok b
  else (spec.filter (·.2.initialise)).foldlM (fun b nd => addDataset E a b nd.1 nd.2) b

/-- Lines 422-444: the datasets of another container. -/
def copyDsets (E : Env α β V Ty) (axes : List String) (spec : List (String × DSpec Ty)) (a : Args α β V)
    (b : Box α β V) : Except PyErr (Box α β V) :=
  match a.dsetsSrc with
  | none => .ok b
  | some src => spec.foldlM (copyDset E a (axes.filter fun ax => (a.kw ax).isSome) src) b

/-- Lines 446-465. -/
def copyAllAttrs (E : Env α β V Ty) (spec : List (String × DSpec Ty)) (a : Args α β V) (b : Box α β V) :
    Box α β V :=
  match a.attrsSrc with
  | none => b
  | some src => copyAttrs E spec src b

/-- Lines 351-465 `__init__`. `axes` and `spec` are the axes and dataset specifications of the class
(C37). -/
def construct (E : Env α β V Ty) (axes : List String) (spec : List (String × DSpec Ty)) (a : Args α β V) :
    Except PyErr (Box α β V) := do
  let b1 ← axes.foldlM (addAxis E a) Box.empty
  let b2 ← initDsets E spec a b1
  let b3 ← copyDsets E axes spec a b2
  pure (copyAllAttrs E spec a b3)

end Verif.Proto
