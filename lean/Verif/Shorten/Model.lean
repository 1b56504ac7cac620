import Verif.Trunc.ArrModel
import Mathlib.Algebra.Order.Ring.Rat

/-!
# Model of the task that truncates datasets

Models `Truncate` (`caput/pipeline/tasklib/io.py:637-839`).

Simplifications: numbers are rational; the truncation of one number is a function `Trunc`, of which `machine` is the one of
the code, built from the functions of C13 and C14; a name of weights refers to the dataset with that name (not to an attribute of the container with other contents); datasets are
not distributed; chunking is left out.
-/
namespace Verif.Shorten

abbrev Str := List Char

inductive PyErr where
  | keyError
  | indexError
  | valueError
  | typeError
  | runtimeError
  deriving DecidableEq, Repr

inductive Kind where
  | f32
  | f64
  | other
  deriving DecidableEq, Repr

/-- A dataset: its attribute "axis", shape, type (of the parts, if complex) and values; `im` is for complex ones. -/
structure Dset where
  axes : List Str
  shape : List Nat
  kind : Kind
  cplx : Bool
  re : List Nat → ℚ
  im : List Nat → ℚ

/-- A value of the configuration: a dict (with its entries, which may be missing), a float, or something else that counts
as true or false. -/
inductive Given where
  | dict (weight : Option (Option Str)) (fixed : Option ℚ) (var : Option (Option ℚ))
  | float (q : ℚ)
  | flag (b : Bool)

/-- A scalar of a YAML document, as it is loaded. -/
inductive Plain where
  | float (q : ℚ)
  | int (n : Int)
  | bool (b : Bool)
  | text (s : Str)
  | null

/-- Lines 700-704: what a scalar is as a value of the configuration. Only a `float` is one of the second kind; of others only the truth counts. -/
def Plain.given : Plain → Given
  | .float q => .float q
  | .int n => .flag (n != 0)
  | .bool b => .flag b
  | .text s => .flag (!s.isEmpty)
  | .null => .flag false

/-- `bool(given)`. -/
def Given.truthy : Given → Bool
  | .dict none none none => false
  | .dict _ _ _ => true
  | .float q => q != 0
  | .flag b => b

structure Params where
  weight : Option Str
  fixed : ℚ
  var : Option ℚ

/-- Lines 666-670 `default_params`. -/
def defaults : Params := ⟨none, 1 / 10000, some (1 / 1000)⟩

/-- Lines 699-706: the parameters for a value. -/
def parse (g : Given) : Option Params :=
  match g with
  | .dict w f v => some ⟨w.getD defaults.weight, f.getD defaults.fixed, v.getD defaults.var⟩
  | .float q => some { defaults with fixed := q }
  | .flag b => if b then some defaults else none

/-- Lines 708-710: `params["variance_increase"] *= 3`. -/
def scaled (p : Params) : Params := { p with var := p.var.map (· * 3) }

/-- Lines 672-712 `_get_params`. `conf` is the configuration, `cls` the specification of the class with its entries
"truncate". -/
def getParams (conf : Option (Str → Option Given)) (cls : Str → Option (Option Given)) (d : Str) : Option Params :=
  let fromClass := match cls d with
    | none => none
    | some none => none
    | some (some g) => if g.truthy then (parse g).map scaled else none
  match conf with
  | none => fromClass
  | some c => match c d with
    | none => fromClass
    | some g => (parse g).map scaled

/-- Line 753: the shape of `weight[:][slobj]`. -/
def expandShape (waxes : List Str) : List Str → List Nat → Except PyErr (List Nat)
  | [], ws => .ok ws
  | a :: ds, ws =>
    if waxes.contains a then
      match ws with
      | [] => .error .indexError
      | n :: ws =>
        match expandShape waxes ds ws with
        | .error e => .error e
        | .ok r => .ok (n :: r)
    else
      match expandShape waxes ds ws with
      | .error e => .error e
      | .ok r => .ok (1 :: r)

/-- The entry of the weights at an index of `weight[:][slobj]`. -/
def pick (waxes : List Str) : List Str → List Nat → List Nat
  | [], j => j
  | _ :: _, [] => []
  | a :: ds, k :: j => if waxes.contains a then k :: pick waxes ds j else pick waxes ds j

/-- `np.broadcast_to` for shapes of one length. -/
def fits : List Nat → List Nat → Bool
  | [], [] => true
  | n :: l, m :: k => (n == m || n == 1) && fits l k
  | _, _ => false

/-- The index into an array of shape `s` at the index `i` of what it is broadcast to. -/
def squash : List Nat → List Nat → List Nat
  | n :: s, k :: i => (if n = 1 then 0 else k) :: squash s i
  | _, _ => []

/-- Lines 714-762 `_get_weights`: the weight for each element. Leading axes are added where there are too few. -/
def getWeights (data w : Dset) : Except PyErr (List Nat → ℚ) :=
  match expandShape w.axes data.axes w.shape with
  | .error e => .error e
  | .ok s =>
    if data.shape.length < s.length then .error .valueError
    else
      let k := data.shape.length - s.length
      if fits s (data.shape.drop k) then
        .ok fun i => (if data.cplx then 2 else 1) * w.re (pick w.axes data.axes (squash s (i.drop k)))
      else .error .valueError

/-- The truncation of a number of a type: relative to it, and by a weight divided by an increase of the variance. -/
structure Trunc where
  rel : Kind → ℚ → ℚ → ℚ
  wt : Kind → ℚ → ℚ → ℚ → ℚ → ℚ

/-- The arithmetic of the processor in a type, of numbers known exactly: rounding, and one over the square root. -/
structure Arith where
  rnd : Kind → ℚ → ℚ
  isq : Kind → ℚ → ℚ

open Classical in
/-- The bits of a number of the format and what `f` makes of them, as a number. Outside the format (or if the result is not
finite) the number itself, about which no theorem says anything. -/
noncomputable def through (F : Verif.Trunc.Fmt) (f : BitVec F.w → Option (BitVec F.w)) (v : ℚ) : ℚ :=
  if h : ∃ b, F.decode b = .fin v then
    match f h.choose with
    | some b => (F.finite? b).getD v
    | none => v
  else v

/-- `caput/util/truncate.pyx:78-166` and line 820 `wdset /= specs["variance_increase"]`: the truncation that the code uses. -/
noncomputable def machine (A : Arith) : Trunc :=
  ⟨fun k p v => match k with
    | .f32 => through Verif.Trunc.f32 (Verif.Trunc.f32.relElem (A.rnd k) p) v
    | .f64 => through Verif.Trunc.f64 (Verif.Trunc.f64.relElem (A.rnd k) p) v
    | .other => v,
   fun k p w inc v => match k with
    | .f32 => through Verif.Trunc.f32 (fun b => Verif.Trunc.f32.weightElem (A.rnd k) (A.isq k) p b (A.rnd k (w / inc))) v
    | .f64 => through Verif.Trunc.f64 (fun b => Verif.Trunc.f64.weightElem (A.rnd k) (A.isq k) p b (A.rnd k (w / inc))) v
    | .other => v⟩

/-- Lines 805-816. -/
def truncRelative (T : Trunc) (p : ℚ) (d : Dset) : Except PyErr Dset :=
  if d.kind = .other then .error .runtimeError
  else if d.cplx then .ok { d with re := fun i => T.rel d.kind p (d.re i), im := fun i => T.rel d.kind p (d.im i) }
  else .ok { d with re := fun i => T.rel d.kind p (d.re i) }

/-- Lines 817-837. An increase of zero, by which numpy divides without an error, is not covered by the theorems. -/
def truncWeights (T : Trunc) (p : Params) (d w : Dset) : Except PyErr Dset :=
  match getWeights d w with
  | .error e => .error e
  | .ok wt =>
    match p.var with
    | none => .error .typeError
    | some v =>
      if d.kind = .other ∨ d.kind ≠ w.kind then .error .runtimeError
      else if d.cplx then .ok { d with re := fun i => T.wt d.kind p.fixed (wt i) v (d.re i), im := fun i => T.wt d.kind p.fixed (wt i) v (d.im i) }
      else .ok { d with re := fun i => T.wt d.kind p.fixed (wt i) v (d.re i) }

abbrev Box := Str → Option Dset

/-- Lines 790-837: one dataset. -/
def step (T : Trunc) (params : Str → Option Params) (b : Box) (name : Str) : Except PyErr Box :=
  match params name with
  | none => .ok b
  | some p =>
    match b name with
    | none => .ok b
    | some d =>
      let r := match p.weight with
        | none => truncRelative T p.fixed d
        | some wn =>
          match b wn with
          | none => .error .keyError
          | some w => truncWeights T p d w
      match r with
      | .error e => .error e
      | .ok d' => .ok fun a => if a = name then some d' else b a

def steps (T : Trunc) (params : Str → Option Params) : Box → List Str → Except PyErr Box
  | b, [] => .ok b
  | b, n :: l =>
    match step T params b n with
    | .error e => .error e
    | .ok b' => steps T params b' l

/-- Lines 764-839 `process`. `names` are the datasets of the specification of the container. -/
def process (T : Trunc) (conf : Option (Str → Option Given)) (cls : Str → Option (Option Given)) (names : List Str) (b : Box) :
    Except PyErr Box :=
  steps T (getParams conf cls) b names

end Verif.Shorten
