/-!
# Model of the history of a container

Models `caput/containers/_core.py:59-91` (`history`) and `172-200` (`add_history`). The history is kept in
the attributes of one group: the attribute `order` holds the text of the list of names, and each entry is
an attribute holding a dictionary. In memory the attributes hold references to the dictionaries passed in
by the caller, so the objects are kept on a heap.

`str(list)` and `ast.literal_eval` are the parameters `render` and `parse` (on texts of type `T`); `Literal` has the ones of
python. Entries
in the old format are subgroups with attributes (`historyOf`).
-/
namespace Verif.Cont

/-- Exceptions. -/
inductive HErr where
  | valueError
  | keyError
  | typeError
  deriving DecidableEq

/-- The value of an attribute. -/
inductive Attr (T : Type) where
  | text (t : T)
  | obj (ref : Nat)

/-- The attributes of the history group and the heap of dictionaries. -/
structure Hist (T V : Type) where
  attrs : List (String × Attr T)
  heap : List V

/-- The last assignment to a key of a dictionary. -/
def lastOf {β : Type} (d : List (String × β)) (k : String) : Option β :=
  (d.reverse.find? (·.1 == k)).map (·.2)

/-- Environment: how lists of names are written and read, the empty dictionary, and which values the
attributes accept (all of them in memory; dictionaries are refused by `h5py`). -/
structure HEnv (T V : Type) where
  render : List String → T
  parse : T → Option (List String)
  empty : V
  storable : V → Bool

variable {T V : Type}

/-- _core.py:48-56: a new container. -/
def Hist.init (env : HEnv T V) (heap : List V) : Hist T V := ⟨[("order", .text (env.render []))], heap⟩

/-- _core.py:85-89: `history["order"]`. -/
def readOrder (env : HEnv T V) (s : Hist T V) : Except HErr (List String) :=
  match lastOf s.attrs "order" with
  | some (.text t) =>
    match env.parse t with
    | some l => .ok l
    | none => .error .valueError
  | some (.obj _) => .error .valueError
  | none => .error .keyError

/-- _core.py:82-83: `history[name]` for a name other than `order`. -/
def readEntry (s : Hist T V) (name : String) : Option V :=
  match lastOf s.attrs name with
  | some (.obj ref) => s.heap[ref]?
  | _ => none

/-- _core.py:192-193: an omitted entry is a new empty dictionary. -/
def alloc (env : HEnv T V) (s : Hist T V) (h : Option Nat) : Hist T V × Nat :=
  match h with
  | some ref => (s, ref)
  | none => (⟨s.attrs, s.heap ++ [env.empty]⟩, s.heap.length)

/-- _core.py:197-200: the new order is stored first, then the entry. -/
def storeEntry (env : HEnv T V) (s : Hist T V) (order : List String) (name : String) (ref : Nat) :
    Option HErr × Hist T V :=
  match s.heap[ref]? with
  | none => (some .keyError, s)
  | some v =>
    if env.storable v then
      (none, ⟨s.attrs ++ [("order", .text (env.render (order ++ [name]))), (name, .obj ref)], s.heap⟩)
    else
      (some .typeError, ⟨s.attrs ++ [("order", .text (env.render (order ++ [name])))], s.heap⟩)

/-- _core.py:172-200 `add_history(name, history)`; `history` is the number of the caller's dictionary on
the heap, or `None`. Returns the exception raised, if any, and the new state. -/
def addHistory (env : HEnv T V) (s : Hist T V) (name : String) (h : Option Nat) :
    Option HErr × Hist T V :=
  if name = "order" then (some .valueError, s)
  else
    match readOrder env s with
    | .error e => (some e, s)
    | .ok order => storeEntry env (alloc env s h).1 order name (alloc env s h).2

/-- A value of the dictionary that `history` gives. -/
inductive HVal (T V : Type) where
  | entry (v : V)
  | text (t : T)
  | names (l : List String)
  deriving DecidableEq

/-- _core.py:59-91: the property `history`. `old` are the subgroups of the history group with their attributes, in the old
format. Attributes come after them, and `order` last. -/
def historyOf (env : HEnv T V) (old : List (String × V)) (s : Hist T V) : Except HErr (String → Option (HVal T V)) :=
  match readOrder env s with
  | .error e => .error e
  | .ok l => .ok fun name =>
    if name = "order" then some (.names l)
    else
      match lastOf s.attrs name with
      | some (.obj ref) => s.heap[ref]?.map .entry
      | some (.text t) => some (.text t)
      | none => (lastOf old name).map .entry

/-- _core.py:46-56: a container made from a file whose history has these attributes. The order is added if there is none and the
container can be written to. -/
def openHist (env : HEnv T V) (writable : Bool) (s : Hist T V) : Hist T V :=
  if writable && !(s.attrs.any fun a => a.1 == "order") then ⟨s.attrs ++ [("order", .text (env.render []))], s.heap⟩ else s

/-- What a program does: it calls `add_history`, or changes one of its dictionaries. -/
inductive HOp (V : Type) where
  | add (name : String) (h : Option Nat)
  | write (ref : Nat) (v : V)

/-- One action. -/
def HOp.run (env : HEnv T V) (s : Hist T V) : HOp V → Hist T V
  | .add name h => (addHistory env s name h).2
  | .write ref v => ⟨s.attrs, s.heap.set ref v⟩

end Verif.Cont
