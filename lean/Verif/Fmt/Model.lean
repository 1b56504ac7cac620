/-!
# Model of file formats and settings of compression

Models `HDF5.compression_kwargs`, `Zarr.compression_kwargs`, `guess_file_format` and `check_file_format`
(`caput/memdata/fileformats.py:180-240, 271-336, 387-478`), `_prepare_compression_args` for a copy in memory
(`caput/memdata/_memh5.py:2587-2610`), and the treatment of the property `compression` by
`ContainerTask._save_output` (`caput/pipeline/tasklib/base.py:446-492`).

Left out: what `h5py`, `zarr` and `numcodecs` make of the arguments they are given; logging; whether the backends are
installed (both are).
-/
namespace Verif.Fmt

inductive PyErr where
  | valueError
  | typeError
  | runtimeError
  | notImplemented
  deriving DecidableEq, Repr

/-- A value of `compression`, or an entry of `compression_opts`. -/
inductive Val where
  | none
  | str (s : String)
  | num (n : Int)
  deriving DecidableEq, Repr

/-- A value of `compression_opts`. -/
inductive Opts where
  | none
  | num (n : Int)
  | seq (l : List Val)
  deriving DecidableEq, Repr

/-- Whether `bitshuffle` and `numcodecs` are installed (lines 65-76), and what `int` makes of a string. -/
structure Env where
  enabled : Bool
  intOf : String → Option Int

/-- `bitshuffle.h5.H5FILTER`. -/
def h5filter : Int := 32008

/-- `bitshuffle.h5.H5_COMPRESS_LZ4`. -/
def h5lz4 : Int := 2

/-- What counts as true. -/
def Val.truthy : Val → Bool
  | .none => false
  | .str s => s != ""
  | .num n => n != 0

def Opts.truthy : Opts → Bool
  | .none => false
  | .num n => n != 0
  | .seq l => l != []

/-- The keyword arguments for `h5py`; `none` is `{}`. -/
abbrev H5Kw := Option (Val × Opts)

/-- The value of `compressor` for `zarr`: none, the one that was given, `GZip(level)`, or `Blosc(c, BITSHUFFLE, blocksize)`. -/
inductive Compressor (κ : Type) where
  | none
  | given (k : κ)
  | gzip (level : Opts)
  | blosc (c : Val) (blocksize : Int)
  deriving DecidableEq, Repr

/-- `blocksize, c = compression_opts` with `except ValueError` (lines 222-227, 313-318). -/
def unpack : Opts → Except PyErr (Val × Val)
  | .seq [b, c] => .ok (b, c)
  | .seq _ => .error .valueError
  | _ => .error .typeError

/-- `compression in ("bitshuffle", H5FILTER, str(H5FILTER))`. -/
def isShuffle (c : Val) : Bool := c == .str "bitshuffle" || c == .num h5filter || c == .str "32008"

variable {κ : Type}

/-- Lines 180-240 `HDF5.compression_kwargs`. A `compressor` counts as true. -/
def hdf5 (e : Env) (c : Val) (o : Opts) (k : Option κ) : Except PyErr H5Kw :=
  if k.isSome then .error .notImplemented
  else if c = .str "bitshuffle" ∧ e.enabled = false then .error .runtimeError
  else if e.enabled && isShuffle c then
    if o = .none then .error .valueError
    else
      match unpack o with
      | .error x => .error x
      | .ok (b, d) =>
        let b := if b = .none then .num 0 else b
        let d := if d = .str "2" ∨ d = .str "lz4" then .num h5lz4 else d
        .ok (some (.num h5filter, .seq [b, d]))
  else if c ≠ .none then .ok (some (c, o))
  else .ok none

/-- `int(blocksize)`. -/
def toInt (e : Env) : Val → Except PyErr Int
  | .none => .error .typeError
  | .num n => .ok n
  | .str s =>
    match e.intOf s with
    | some n => .ok n
    | none => .error .valueError

/-- Lines 271-336 `Zarr.compression_kwargs`. -/
def zarr (e : Env) (c : Val) (o : Opts) (k : Option κ) : Except PyErr (Compressor κ) :=
  if k.isSome && (c.truthy || o.truthy) then .error .valueError
  else if c.truthy then
    if e.enabled = false then .error .valueError
    else if c = .str "gzip" then .ok (.gzip o)
    else if isShuffle c then
      match unpack o with
      | .error x => .error x
      | .ok (b, d) =>
        let d := if d = .num h5lz4 ∨ d = .str "2" then .str "lz4" else d
        let b := if b = .none then .num 0 else b
        match toInt e b with
        | .error x => .error x
        | .ok n => .ok (.blosc d n)
    else .error .valueError
  else
    match k with
    | none => .ok .none
    | some k => .ok (.given k)

/-- `_memh5.py:2603-2608`: the settings of a dataset that is copied in memory. -/
def inMemory (e : Env) (c : Val) (o : Opts) : Except PyErr (Val × Opts) :=
  match hdf5 (κ := Unit) e c o none with
  | .error x => .error x
  | .ok none => .ok (.none, .none)
  | .ok (some p) => .ok p

inductive Format where
  | hdf5
  | zarr
  deriving DecidableEq, Repr

def endsWith (name : List Char) (s : String) : Bool := s.toList.isSuffixOf name

/-- Lines 387-416 `guess_file_format`. `isDir` tells whether the name is that of a directory. -/
def guess (isDir : Bool) (name : List Char) (default : Option Format) : Option Format :=
  if endsWith name ".zarr.zip" then some .zarr
  else if endsWith name ".zarr" || isDir then some .zarr
  else if endsWith name ".h5" || endsWith name ".hdf5" then some .hdf5
  else default

/-- Lines 419-478 `check_file_format`. `data` is the format of the group, if the data is one. -/
def check (isDir : Bool) (name : List Char) (fmt data : Option Format) : Except PyErr (Option Format) :=
  let byName := guess isDir name none
  if data.isSome ∧ byName.isSome ∧ byName ≠ data then .error .valueError
  else
    let g := if data.isSome then data else byName
    match fmt with
    | none => .ok g
    | some f => if some f ≠ g then .error .valueError else .ok (some f)

/-! ### Settings of a task -/

/-- The settings of a dataset. -/
structure Setting where
  chunks : Option (List Nat)
  comp : Val
  opts : Opts
  deriving DecidableEq, Repr

/-- An entry for a dataset: a key and its value. -/
inductive Entry where
  | chunks (v : Option (List Nat))
  | comp (v : Val)
  | opts (v : Opts)
  | other (key : String)
  deriving DecidableEq, Repr

/-- `setattr(dataset, key, val)`. -/
def setEntry (s : Setting) : Entry → Setting
  | .chunks v => { s with chunks := v }
  | .comp v => { s with comp := v }
  | .opts v => { s with opts := v }
  | .other _ => s

/-- Lines 473-482: options are added for "bitshuffle" and `H5FILTER` (which is `None` if it is not installed). The assignment of line
477 is to a view of the dataset, and is lost. -/
def shorthand (e : Env) (s : Setting) : Setting :=
  if e.enabled then
    if (s.comp = .str "bitshuffle" ∨ s.comp = .num h5filter) ∧ s.opts = .none then { s with opts := .seq [.num 0, .num h5lz4] } else s
  else
    if (s.comp = .str "bitshuffle" ∨ s.comp = .none) ∧ s.opts = .none then { s with opts := .seq [.num 0, .none] } else s

/-- The property `compression`: `bool`, or a dictionary. -/
inductive Conf where
  | flag (b : Bool)
  | dict (l : List (String × List Entry))

/-- Lines 465-486, for one dataset of the dictionary. -/
def override (e : Env) (sets : List (String × Setting)) (d : String × List Entry) : List (String × Setting) :=
  sets.map fun p => if p.1 = d.1 then (p.1, shorthand e (d.2.foldl setEntry p.2)) else p

/-- Lines 451-492 `_save_output`: the settings of all datasets of the container. -/
def settle (e : Env) (c : Conf) (sets : List (String × Setting)) : List (String × Setting) :=
  match c with
  | .dict l => l.foldl (override e) sets
  | .flag true => sets
  | .flag false => sets.map fun p => (p.1, ⟨none, .none, .none⟩)

end Verif.Fmt
