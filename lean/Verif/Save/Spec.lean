import Verif.Save.Model

/-!
# What a container task should do with its outputs
-/
namespace Verif.Save

variable {δ σ : Type}

/-- `f` is the format string with the fields replaced by their values. -/
inductive Formats (E : Env) (d : Dict) : List Piece → Str → Prop
  | nil : Formats E d [] []
  | lit (s : Str) (l : List Piece) (r : Str) : Formats E d l r → Formats E d (.lit s :: l) (s ++ r)
  | field (n : Str) (v : AVal) (l : List Piece) (r : Str) : d n = some v → Formats E d l r →
      Formats E d (.field n :: l) (E.show v ++ r)

/-- The tag of an output: its own, else that of the first input, else the number of the output. -/
inductive StartTag (count : Nat) (d : Dict) : AVal → Prop
  | own (v : AVal) : d "tag".toList = some v → StartTag count d v
  | input (t : Str) (l : List Str) : d "tag".toList = none → d "input_tags".toList = some (.strs (t :: l)) →
      StartTag count d (.str t)
  | count : d "tag".toList = none → (d "input_tags".toList = none ∨ d "input_tags".toList = some (.strs [])) →
      StartTag count d (.num count)

/-- The key of an output. -/
inductive HasKey (outKeys : Option (List Str)) (ii : Nat) : Str → Prop
  | unnamed : outKeys = none ∨ outKeys = some [] → HasKey outKeys ii []
  | named (l : List Str) (k : Str) : outKeys = some l → l[ii]? = some k → HasKey outKeys ii k

/-- What a format string can refer to: five names, and the attributes of the container. -/
def fields (c : Cfg) (count : Nat) (tag : AVal) (key : Str) (d : Dict) : Dict := fun n =>
  if n = "tag".toList then some tag
  else if n = "count".toList then some (.num count)
  else if n = "task".toList then some (.str c.task)
  else if n = "key".toList then some (.str key)
  else if n = "output_root".toList then some (.str c.outputRoot)
  else d n

/-- One value, or one of the list. -/
inductive Chosen {κ : Type} (ii : Nat) : OneOrList κ → κ → Prop
  | one (v : κ) : Chosen ii (.one v) v
  | list (l : List κ) (v : κ) : l[ii]? = some v → Chosen ii (.list l) v

/-- Output number `ii` of a task, `x`, is handled so that `ret` is passed on and the files `evs` are written. -/
def Handled (E : Env) (c : Cfg) (count ii : Nat) (x : Cont δ) (ret : Option (Cont δ)) (evs : List (Ev δ)) : Prop :=
  ∃ (start : AVal) (key tag : Str) (y : Cont δ) (dumps saves : List (Ev δ)),
    StartTag count x.attrs start ∧ HasKey c.outKeys ii key ∧ Formats E (fields c count start key x.attrs) c.tag tag ∧
    -- the container passed on
    y.data = x.data ∧ y.bad = x.bad ∧ y.attrs "tag".toList = some (.str tag) ∧
    (∀ a v, (a, CVal.val v) ∈ c.attrs → a ≠ "tag".toList → y.attrs a = some v) ∧
    (∀ a l, (a, CVal.fmt l) ∈ c.attrs → a ≠ "tag".toList →
      ∃ s, Formats E (fields c count start key x.attrs) l s ∧ y.attrs a = some (.str s)) ∧
    (∀ a, a ≠ "tag".toList → (∀ v, (a, v) ∉ c.attrs) → y.attrs a = x.attrs a) ∧
    (ret = if c.nanCheck = true ∧ x.bad = true ∧ c.nanSkip = true then none else some y) ∧
    -- the files
    evs = dumps ++ saves ∧
    (dumps = if c.nanCheck = true ∧ x.bad = true ∧ c.nanDump = true then
      [.dump ("nandump_".toList ++ c.task ++ "_".toList ++ tag ++ ".h5".toList) y] else []) ∧
    (if c.nanCheck = true ∧ x.bad = true ∧ c.nanSkip = true then saves = [] else
      ∃ save, Chosen ii c.save save ∧
        if save = true then ∃ name file, Chosen ii c.outputName name ∧
          Formats E (fields c count (.str tag) key y.attrs) name file ∧ saves = [.save (E.expand file) y]
        else saves = [])

/-- The tags of the inputs, where there are any and they are needed, are a list of strings. -/
def TagsOk (d : Dict) : Prop :=
  d "tag".toList ≠ none ∨ d "input_tags".toList = none ∨ ∃ l, d "input_tags".toList = some (.strs l)

/-- The container with the tags of the inputs. -/
def withTags (tags : List Str) (x : Cont δ) : Cont δ :=
  { x with attrs := fun a => if a = "input_tags".toList then some (.strs tags) else x.attrs a }

/-- What is passed on, for one output and for several. -/
inductive Gives : Ret δ → List (Option (Cont δ)) → Prop
  | one (x : Option (Cont δ)) : Gives (.one x) [x]
  | many (l : List (Option (Cont δ))) : 2 ≤ l.length → Gives (.many l) l

/-- The files that are saved, without the dumps. -/
def savedFiles : List (Ev δ) → List Str
  | [] => []
  | .save f _ :: l => f :: savedFiles l
  | .dump _ _ :: l => savedFiles l

/-- One call after the other, each giving one container without a NaN. -/
inductive Produces (E : Env) (process : σ → List (Item δ) → Except PyErr (σ × Out δ)) :
    σ → List (List (Item δ)) → List (Cont δ) → σ → Prop
  | nil (t : σ) : Produces E process t [] [] t
  | cons (t t' t'' : σ) (x : List (Item δ)) (y : Cont δ) (xs : List (List (Item δ))) (ys : List (Cont δ)) :
      process t x = .ok (t', .one (.cont y)) → y.bad = false → Produces E process t' xs ys t'' →
      Produces E process t (x :: xs) (y :: ys) t''

end Verif.Save
