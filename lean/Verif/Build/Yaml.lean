import Verif.Build.Model

/-!
# Model of the YAML loader that is meant to record lines

Models `_line_dict`, `SafeLineLoader.construct_mapping` and the line in `CaputConfigError` (`caput/config.py:527-574`), and from PyYAML `SafeConstructor.construct_yaml_map`:

    data = {}
    yield data
    value = self.construct_mapping(node)
    data.update(value)

Left out: anchors, merge keys, explicit tags, and keys of mappings that are not strings.
-/
namespace Verif.Build

open Verif.Config (Val)

/-- A node of a YAML document. A mapping has the line where it starts, counted from zero. -/
inductive Node where
  | scalar (v : Val)
  | seq (l : List Node)
  | map (line : Nat) (l : List (String × Node))

/-- A Python object. A mapping may be one that carries a line (`_line_dict`). -/
inductive PyObj where
  | scalar (v : Val)
  | list (l : List PyObj)
  | dict (line : Option Nat) (l : List (String × PyObj))

/-- `d[k] = v`. -/
def setKey {α : Type} (d : List (String × α)) (k : String) (v : α) : List (String × α) :=
  if d.any (fun x => x.1 == k) then d.map fun x => if x.1 = k then (k, v) else x else d ++ [(k, v)]

/-- A dictionary with these items set one after the other. -/
def toDict {α : Type} (l : List (String × α)) : List (String × α) := l.foldl (fun d x => setKey d x.1 x.2) []

/-- config.py:540-548 `construct_mapping`. -/
def constructMapping (line : Nat) (l : List (String × PyObj)) : PyObj := .dict (some (line + 1)) (toDict l)

/-- `data = {}; data.update(value)`. -/
def updateEmpty : PyObj → PyObj
  | .dict _ l => .dict none l
  | o => o

mutual

/-- `construct_object` and `construct_yaml_map`. -/
def construct : Node → PyObj
  | .scalar v => .scalar v
  | .seq l => .list (constructs l)
  | .map line l => updateEmpty (constructMapping line (constructPairs l))

def constructs : List Node → List PyObj
  | [] => []
  | n :: ns => construct n :: constructs ns

def constructPairs : List (String × Node) → List (String × PyObj)
  | [] => []
  | (k, n) :: l => (k, construct n) :: constructPairs l

end

mutual

/-- The value, without lines. -/
def PyObj.val : PyObj → Val
  | .scalar v => v
  | .list l => .list (PyObj.vals l)
  | .dict _ l => .dict (PyObj.pairs l)

def PyObj.vals : List PyObj → List Val
  | [] => []
  | o :: os => o.val :: PyObj.vals os

def PyObj.pairs : List (String × PyObj) → List (String × Val)
  | [] => []
  | (k, o) :: l => (k, o.val) :: PyObj.pairs l

end

/-- config.py:570-573: the line that a location gives. -/
def PyObj.line : PyObj → Option Nat
  | .dict line _ => line
  | _ => none

/-- `o[k]` for a mapping. -/
def PyObj.get (k : String) : PyObj → Option PyObj
  | .dict _ l => l.lookup k
  | _ => none

/-- `o[i]` for a list. -/
def PyObj.item (i : Nat) : PyObj → Option PyObj
  | .list l => l[i]?
  | _ => none

/-- _pipeline.py:199: a document and the lines that its entries of the task list carry. -/
def loadDoc (n : Node) : Doc :=
  let o := construct n
  let entry (i : Nat) := (o.get "pipeline").bind fun p => (p.get "tasks").bind (PyObj.item i)
  ⟨o.val, fun i => ((entry i).bind PyObj.line, ((entry i).bind (PyObj.get "params")).bind PyObj.line)⟩

end Verif.Build
