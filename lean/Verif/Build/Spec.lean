import Verif.Build.Model
import Verif.Config.Props

/-!
# What a task is made of
-/
namespace Verif.Build

open Verif.Config (Val Cfg Class Obj Decl getAttr MostDerived)

/-- `path` is the name of a local task; or else of something in a module, after the last dot. -/
def Named (W : World) (path : String) (t : Thing) : Prop :=
  W.locals path = some t ∨
    W.locals path = none ∧ ∃ m n attrs, path.toList = m ++ '.' :: n ∧ '.' ∉ n ∧ m ≠ [] ∧ W.module (String.ofList m) = .ok attrs ∧ attrs (String.ofList n) = some t

/-- The groups of parameters of an entry of the task list: none; or one, in the entry itself; or those of the names given, in the document. -/
def Groups (doc : Cfg) (s : Spec) (gs : List Cfg) : Prop :=
  match s.entries.lookup "params" with
  | none => gs = []
  | some (.dict d) => gs = [d]
  | some (.str k) => ∃ g, doc.lookup k = some (.dict g) ∧ gs = [g]
  | some (.list l) => List.Forall₂ (fun v g => ∃ k, v = .str k ∧ doc.lookup k = some (.dict g)) l gs
  | some _ => False

/-- The value of a parameter: that in the last group which has it. -/
def setting (gs : List Cfg) (k : String) : Option Val := gs.reverse.findSome? fun g => g.lookup k

/-- The value of a parameter, or else the one that all tasks are given. -/
def value (gs : List Cfg) (base : Cfg) (k : String) : Option Val := (setting gs k).or (base.lookup k)

/-- `k` is the key of a property of the classes, or one of the two keys that need not be. -/
def Known (classes : List Class) (k : String) : Prop := (∃ x ∈ classes.flatten, x.2.key.getD x.1 = k) ∨ k = "versions" ∨ k = "pipeline_config"

/-- The keys of an entry of the task list. -/
def SpecKeys (s : Spec) : Prop := ∀ kv ∈ s.entries, kv.1 = "type" ∨ kv.1 = "params" ∨ kv.1 = "requires" ∨ kv.1 = "in" ∨ kv.1 = "out"

/-- `t` is a task as the entry `s` of the task list of the document asks for: of the class named, with every property set from its parameter, and with the default if there is none. -/
structure Made (W : World) (doc base : Cfg) (s : Spec) (t : Task) : Prop where
  keys : SpecKeys s
  named : ∃ path, s.entries.lookup "type" = some (.str path) ∧ Named W path (.task t.name t.classes)
  set : ∀ gs, Groups doc s gs → ∀ a d, MostDerived t.classes a d → ∀ v, value gs base (d.key.getD a) = some v → ∃ w, d.conv v = .ok w ∧ getAttr t.classes t.obj a = some (.ok w)
  default : ∀ gs, Groups doc s gs → ∀ a d, MostDerived t.classes a d → (∀ x ∈ t.classes.flatten, x.1 = a → value gs base (x.2.key.getD a) = none) →
    getAttr t.classes t.obj a = some (match d.default with
      | none => .ok .none
      | some v => d.conv v)
  known : ∀ gs, Groups doc s gs → ∀ g ∈ gs, ∀ kv ∈ g, Known t.classes kv.1

end Verif.Build
