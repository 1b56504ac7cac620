import Verif.Config.Model

/-!
# Model of deprecated configuration properties

Models the argument `deprecated` of `Property` and the warnings in `__get__`, `__set__` and `_from_config`
(`caput/config.py:90-167, 183-204`), on top of `Config.Model`.

Simplifications: a warning is the name of the attribute in it. `strict` says whether the user has turned warnings of this kind
into errors (`warnings.simplefilter("error")`); filters that show a warning once only are left out.
-/
namespace Verif.Config

/-- A declaration, and whether it is deprecated (config.py:90-102). -/
structure Dep where
  decl : Decl := {}
  deprecated : Bool := false

abbrev DClass := List (Attr × Dep)

/-- What ends a call: an exception, or a warning that has been turned into one. -/
inductive Stop where
  | err (e : Err)
  | warning (a : Attr)

/-- config.py:183-204 `_set_propname_warn_deprecated`: the warnings shown, and the exception. -/
def warn (strict : Bool) (a : Attr) (d : Dep) : List Attr × Option Stop :=
  if d.deprecated then if strict then ([], some (.warning a)) else ([a], none)
  else ([], none)

/-- config.py:133-167 `_from_config`: the value is set before the warning is given. -/
def fromConfigW (strict : Bool) (cfg : Cfg) (o : Obj) (x : Attr × Dep) : Obj × List Attr × Option Stop :=
  match cfg.lookup (keyOf x.1 x.2.decl) with
  | none => (o, [], none)
  | some v =>
    match x.2.decl.conv v with
    | .error e => (o, [], some (.err (wrapErr e)))
    | .ok w => (o.set x.1 w, warn strict x.1 x.2)

/-- config.py:262-266. -/
def readAllW (strict : Bool) (cfg : Cfg) : Obj → List (Attr × Dep) → Obj × List Attr × Option Stop
  | o, [] => (o, [], none)
  | o, x :: xs =>
    match fromConfigW strict cfg o x with
    | (o1, w, some e) => (o1, w, some e)
    | (o1, w, none) =>
      match readAllW strict cfg o1 xs with
      | (o2, w', r) => (o2, w ++ w', r)

/-- config.py:233-286 `read_config`. -/
def readConfigW (strict : Bool) (classes : List DClass) (o : Obj) (cfg : Cfg) (compare : Compare := .flag false)
    (useDefaults : Bool := true) : Obj × List Attr × Option Stop :=
  match readAllW strict cfg o classes.flatten with
  | (o1, w, some e) => (o1, w, some e)
  | (o1, w, none) =>
    let propKeys := classes.flatten.map fun x => keyOf x.1 x.2.decl
    if compare.truth && hasUnused cfg propKeys compare then (o1, w, some (.err .configError))
    else if !useDefaults && hasMissing cfg propKeys then (o1, w, some (.err .configError))
    else (o1, w, none)

/-- The declaration that attribute lookup finds. -/
def lookupW (classes : List DClass) (a : Attr) : Option Dep :=
  (classes.flatten.reverse.find? fun x => x.1 == a).map Prod.snd

/-- config.py:104-118 `__get__`; the outer `none` is an `AttributeError`. -/
def getAttrW (strict : Bool) (classes : List DClass) (o : Obj) (a : Attr) : Option (List Attr × Except Stop Val) :=
  match lookupW classes a with
  | none => none
  | some d =>
    match warn strict a d with
    | (w, some e) => some (w, .error e)
    | (w, none) =>
      match o a with
      | some v => some (w, .ok v)
      | none =>
        match d.decl.default with
        | none => some (w, .ok .none)
        | some v =>
          match d.decl.conv v with
          | .ok r => some (w, .ok r)
          | .error e => some (w, .error (.err e))

/-- config.py:120-131 `__set__`; `none` if the attribute is not a property. -/
def setAttrW (strict : Bool) (classes : List DClass) (o : Obj) (a : Attr) (v : Val) : Option (Obj × List Attr × Option Stop) :=
  match lookupW classes a with
  | none => none
  | some d =>
    match warn strict a d with
    | (w, some e) => some (o, w, some e)
    | (w, none) =>
      match d.decl.conv v with
      | .ok r => some (o.set a r, w, none)
      | .error e => some (o, w, some (.err e))

end Verif.Config
