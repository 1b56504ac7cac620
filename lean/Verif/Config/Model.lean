/-!
# Model of configuration reading

Models `caput/config.py`: `Property` (69-181), `Reader.read_config` (233-286), `float_in_range`
(320-353), `enum` (356-393), `list_type` (396-465), `logging_config` (468-521), and
`caput/pipeline/extensions/_configtypes.py:11-70` `file_format`.

Simplifications. Every property object is declared once, under one attribute name, so that
`_set_propname` (169-181) finds that name. Deprecation warnings are left out. A configuration is an
association list with string keys. `_finalise_config` does nothing (its default).
-/
namespace Verif.Config

/-- A Python float. -/
inductive Fl where
  | fin (q : Rat)
  | nan
  | inf
  | ninf
  deriving DecidableEq

/-- Python's `<` on floats: false if one side is NaN. -/
def Fl.lt : Fl → Fl → Bool
  | .fin a, .fin b => decide (a < b)
  | .ninf, .fin _ => true
  | .ninf, .inf => true
  | .fin _, .inf => true
  | _, _ => false

/-- Configuration values. `cls true` is a subclass of `FileFormat`, `cls false` another class. -/
inductive Val where
  | none
  | bool (b : Bool)
  | int (i : Int)
  | flt (f : Fl)
  | str (s : String)
  | list (l : List Val)
  | tuple (l : List Val)
  | dict (l : List (String × Val))
  | cls (name : String) (isFormat : Bool)

/-- Python exceptions. -/
inductive Err where
  | configError
  | typeError
  | valueError
  | attributeError
  deriving DecidableEq, Repr

/-! ## Properties and `read_config` -/

abbrev Attr := String
abbrev Key := String

/-- config.py:90-102 `Property.__init__`: `default` is `none` for Python's `None`. -/
structure Decl where
  key : Option Key := none
  conv : Val → Except Err Val := .ok
  default : Option Val := none

/-- The `__dict__` of a class: its properties in the order of declaration. -/
abbrev Class := List (Attr × Decl)

/-- The `__dict__` of an object. -/
abbrev Obj := Attr → Option Val

abbrev Cfg := List (Key × Val)

/-- config.py:153-154: the key of a property, its attribute name by default. -/
def keyOf (a : Attr) (d : Decl) : Key := d.key.getD a

def Obj.set (o : Obj) (a : Attr) (v : Val) : Obj := fun b => if b = a then some v else o b

/-- config.py:159-163: only a `TypeError` is turned into a `CaputConfigError`. -/
def wrapErr : Err → Err
  | .typeError => .configError
  | e => e

/-- config.py:133-167 `_from_config`. -/
def fromConfig (cfg : Cfg) (o : Obj) (x : Attr × Decl) : Except Err Obj :=
  match cfg.lookup (keyOf x.1 x.2) with
  | none => .ok o
  | some v =>
    match x.2.conv v with
    | .error e => .error (wrapErr e)
    | .ok w => .ok (o.set x.1 w)

/-- config.py:262-266: all properties of all classes; the object is changed in place, so that it
keeps what was set before an exception. -/
def readAll (cfg : Cfg) : Obj → List (Attr × Decl) → Obj × Option Err
  | o, [] => (o, none)
  | o, x :: xs =>
    match fromConfig cfg o x with
    | .error e => (o, some e)
    | .ok o' => readAll cfg o' xs

/-- The argument `compare_keys`: a Boolean, or a list of keys to tolerate. -/
inductive Compare where
  | flag (b : Bool)
  | tolerate (l : List Key)

/-- Python truth of `compare_keys`. -/
def Compare.truth : Compare → Bool
  | .flag b => b
  | .tolerate l => !l.isEmpty

def Compare.tolerated : Compare → List Key
  | .flag _ => []
  | .tolerate l => l

/-- config.py:268-277. -/
def hasUnused (cfg : Cfg) (propKeys : List Key) (c : Compare) : Bool :=
  cfg.any fun kv => !(propKeys ++ c.tolerated).contains kv.1

/-- config.py:279-284. -/
def hasMissing (cfg : Cfg) (propKeys : List Key) : Bool :=
  propKeys.any fun k => !(cfg.map Prod.fst).contains k

/-- config.py:233-286 `read_config`, for the classes of the object in the order of
`inspect.getmro(type(self))[::-1]`: base classes first. -/
def readConfig (classes : List Class) (o : Obj) (cfg : Cfg) (compare : Compare := .flag false)
    (useDefaults : Bool := true) : Obj × Option Err :=
  let decls := classes.flatten
  let r := readAll cfg o decls
  match r.2 with
  | some e => (r.1, some e)
  | none =>
    let propKeys := decls.map fun x => keyOf x.1 x.2
    if compare.truth && hasUnused cfg propKeys compare then (r.1, some .configError)
    else if !useDefaults && hasMissing cfg propKeys then (r.1, some .configError)
    else (r.1, none)

/-- config.py:104-118 `__get__`, called on the property found by attribute lookup: the declaration in
the most derived class. The outer `none` is an `AttributeError`. -/
def getAttr (classes : List Class) (o : Obj) (a : Attr) : Option (Except Err Val) :=
  match classes.flatten.reverse.find? (fun x => x.1 == a) with
  | none => none
  | some (_, d) =>
    some <| match o a with
      | some v => .ok v
      | none =>
        match d.default with
        | none => .ok .none
        | some v => d.conv v

/-! ## Property types -/

/-- Python's `float(val)`; `parse` reads a string. An integer is taken to be a float (so up to 2^53; larger ones are rounded, or an `OverflowError`). -/
def floatOf (parse : String → Option Fl) : Val → Except Err Fl
  | .flt f => .ok f
  | .int i => .ok (.fin i)
  | .bool b => .ok (.fin (if b then 1 else 0))
  | .str s =>
    match parse s with
    | some f => .ok f
    | none => .error .valueError
  | _ => .error .typeError

/-- config.py:345-351. -/
def floatInRange (parse : String → Option Fl) (start stop : Fl) (v : Val) : Except Err Val :=
  match floatOf parse v with
  | .error e => .error e
  | .ok f => if f.lt start || stop.lt f then .error .configError else .ok (.flt f)

/-- Python's `==` between the values that occur as options (numbers, strings, `None`). Containers
and classes are compared as unequal. -/
def pyEq : Val → Val → Bool
  | .none, .none => true
  | .str a, .str b => a == b
  | .bool a, .bool b => a == b
  | .bool a, .int b => (if a then 1 else 0) == b
  | .int a, .bool b => a == (if b then 1 else 0)
  | .int a, .int b => a == b
  | .int a, .flt (.fin q) => (a : Rat) == q
  | .flt (.fin q), .int a => (a : Rat) == q
  | .bool a, .flt (.fin q) => (if a then (1 : Rat) else 0) == q
  | .flt (.fin q), .bool a => (if a then (1 : Rat) else 0) == q
  | .flt (.fin p), .flt (.fin q) => p == q
  | .flt .inf, .flt .inf => true
  | .flt .ninf, .flt .ninf => true
  | _, _ => false

/-- config.py:384-388. -/
def enumConv (options : List Val) (v : Val) : Except Err Val :=
  if options.any (pyEq v) then .ok v else .error .configError

/-- config.py:356-393 `enum`. -/
def enumProp (options : List Val) (default : Option Val) : Except Err Decl :=
  match default with
  | none => .ok { conv := enumConv options }
  | some d =>
    if options.any (pyEq d) then .ok { conv := enumConv options, default := some d }
    else .error .valueError

/-- Types that `isinstance` is asked about. -/
inductive Ty where
  | int | float | str | list | dict | bool
  deriving DecidableEq

/-- `isinstance`; a `bool` is an `int`. -/
def isInstance : Val → Ty → Bool
  | .int _, .int => true
  | .bool _, .int => true
  | .bool _, .bool => true
  | .flt _, .float => true
  | .str _, .str => true
  | .list _, .list => true
  | .dict _, .dict => true
  | _, _ => false

/-- config.py:434 `isinstance(val, list | tuple)`, with the items. -/
def asSequence : Val → Option (List Val)
  | .list l => some l
  | .tuple l => some l
  | _ => none

/-- config.py:445 and 450: a length given and not zero (Python truth). -/
def given : Option Int → Option Int
  | some 0 => none
  | x => x

/-- config.py:433-455. -/
def listConv (ty : Option Ty) (length maxlength : Option Int) (v : Val) : Except Err Val :=
  match asSequence v with
  | none => .error .configError
  | some l =>
    if !(ty.all fun t => l.all fun x => isInstance x t) then .error .configError
    else if !((given length).all fun n => decide ((l.length : Int) = n)) then .error .configError
    else if !((given maxlength).all fun n => decide ((l.length : Int) ≤ n)) then .error .configError
    else .ok v

/-- Python truth of a value. -/
def truth : Val → Bool
  | .none => false
  | .bool b => b
  | .int i => i != 0
  | .flt (.fin q) => q != 0
  | .flt _ => true
  | .str s => s != ""
  | .list l => !l.isEmpty
  | .tuple l => !l.isEmpty
  | .dict l => !l.isEmpty
  | .cls _ _ => true

/-- `CaputConfigError` becomes `ValueError` (config.py:460-463). -/
def defaultErr : Err → Err
  | .configError => .valueError
  | e => e

/-- config.py:396-465 `list_type`; the default is checked only if it is true. -/
def listType (ty : Option Ty) (length maxlength : Option Int) (default : Option Val) :
    Except Err Decl :=
  match default with
  | none => .ok { conv := listConv ty length maxlength }
  | some d =>
    if truth d then
      match listConv ty length maxlength d with
      | .ok _ => .ok { conv := listConv ty length maxlength, default := some d }
      | .error e => .error (defaultErr e)
    else .ok { conv := listConv ty length maxlength, default := some d }

/-- _configtypes.py:44-63. Line 48 calls `issubclass(val, FileFormat)`, which raises `TypeError`
unless `val` is a class; the lines after it are reached for classes only. -/
def fileFormatConv (v : Val) : Except Err Val :=
  match v with
  | .none => .ok .none
  | .cls n true => .ok (.cls n true)
  | .cls _ false => .error .configError
  | _ => .error .typeError

/-- _configtypes.py:65-70. `lower` is `str.lower`. -/
def fileFormat (lower : String → String) (default : Option Val) : Except Err Decl :=
  match default with
  | none => .ok { conv := fileFormatConv }
  | some (.str s) =>
    if lower s = "hdf5" ∨ lower s = "zarr" then
      .ok { conv := fileFormatConv, default := some (.str s) }
    else .error .configError
  | some _ => .error .configError

/-- config.py:506. -/
def logLevels : List String := ["DEBUG", "INFO", "WARNING", "ERROR", "NOTSET"]

/-- config.py:507-518: one entry; the level must be a string. -/
def checkLevel (upper : String → String) (kv : String × Val) : Except Err (String × Val) :=
  match kv.2 with
  | .str s => if upper s ∈ logLevels then .ok (kv.1, .str (upper s)) else .error .valueError
  | _ => .error .attributeError

/-- config.py:494-519. For other types the message is built from `config.__name__` (line 500), which
raises `AttributeError`, except for classes, which have a name. -/
def loggingConv (upper : String → String) (v : Val) : Except Err Val :=
  match v with
  | .str s => (checkLevel upper ("root", .str s)).map fun x => .dict [x]
  | .dict l => (l.mapM (checkLevel upper)).map .dict
  | .cls _ _ => .error .valueError
  | _ => .error .attributeError

end Verif.Config
