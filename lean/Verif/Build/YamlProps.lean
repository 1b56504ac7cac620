import Verif.Build.Yaml
import Verif.Build.DocProps

/-!
# C83: lines of mistakes in a document

The loader makes mappings that carry their line, and the library copies each into a new one that does not.
-/
namespace Verif.Build

open Verif.Config (Val Cfg)

/-! ### Lemmas -/

mutual

/-- No mapping carries a line. -/
def NoLines : PyObj → Prop
  | .scalar _ => True
  | .list l => NoLinesAll l
  | .dict line l => line = none ∧ NoLinesPairs l

def NoLinesAll : List PyObj → Prop
  | [] => True
  | o :: os => NoLines o ∧ NoLinesAll os

def NoLinesPairs : List (String × PyObj) → Prop
  | [] => True
  | (_, o) :: l => NoLines o ∧ NoLinesPairs l

end

theorem noLinesPairs_iff (l : List (String × PyObj)) : NoLinesPairs l ↔ ∀ x ∈ l, NoLines x.2 := by
  induction l with
  | nil => simp [NoLinesPairs]
  | cons x l ih => obtain ⟨k, o⟩ := x; simp [NoLinesPairs, ih]

theorem noLinesAll_iff (l : List PyObj) : NoLinesAll l ↔ ∀ x ∈ l, NoLines x := by
  induction l with
  | nil => simp [NoLinesAll]
  | cons x l ih => simp [NoLinesAll, ih]

theorem setKey_all {α : Type} (P : α → Prop) (d : List (String × α)) (k : String) (v : α) (hd : ∀ x ∈ d, P x.2) (hv : P v) : ∀ x ∈ setKey d k v, P x.2 := by
  intro x hx
  unfold setKey at hx
  split at hx
  · obtain ⟨y, hy, rfl⟩ := List.mem_map.1 hx
    split
    · exact hv
    · exact hd y hy
  · rcases List.mem_append.1 hx with hx | hx
    · exact hd x hx
    · rw [List.mem_singleton.1 hx]; exact hv

theorem toDict_all {α : Type} (P : α → Prop) (l : List (String × α)) (h : ∀ x ∈ l, P x.2) : ∀ x ∈ toDict l, P x.2 := by
  unfold toDict
  suffices ∀ d : List (String × α), (∀ x ∈ d, P x.2) → ∀ x ∈ l.foldl (fun d x => setKey d x.1 x.2) d, P x.2 from this [] (by simp)
  induction l with
  | nil => exact fun d hd => hd
  | cons y l ih =>
    intro d hd
    exact ih (fun x hx => h x (List.mem_cons_of_mem _ hx)) _ (setKey_all P d y.1 y.2 hd (h y List.mem_cons_self))

mutual

theorem construct_noLines : ∀ n : Node, NoLines (construct n)
  | .scalar v => by simp [construct, NoLines]
  | .seq l => by simp only [construct, NoLines]; exact constructs_noLines l
  | .map line l => by
    simp only [construct, constructMapping, updateEmpty, NoLines, true_and]
    rw [noLinesPairs_iff]
    exact toDict_all NoLines _ ((noLinesPairs_iff _).1 (constructPairs_noLines l))

theorem constructs_noLines : ∀ l : List Node, NoLinesAll (constructs l)
  | [] => by simp [constructs, NoLinesAll]
  | n :: ns => by simp only [constructs, NoLinesAll]; exact ⟨construct_noLines n, constructs_noLines ns⟩

theorem constructPairs_noLines : ∀ l : List (String × Node), NoLinesPairs (constructPairs l)
  | [] => by simp [constructPairs, NoLinesPairs]
  | (k, n) :: l => by simp only [constructPairs, NoLinesPairs]; exact ⟨construct_noLines n, constructPairs_noLines l⟩

end

theorem noLines_line {o : PyObj} (h : NoLines o) : o.line = none := by
  cases o with
  | scalar v => rfl
  | list l => rfl
  | dict line l => exact h.1

theorem mem_of_lookup {α : Type} (l : List (String × α)) (k : String) (o : α) (h : l.lookup k = some o) : ∃ x ∈ l, x.2 = o := by
  induction l with
  | nil => cases h
  | cons x l ih =>
    obtain ⟨k', v⟩ := x
    rw [List.lookup_cons] at h
    split at h
    · cases h; exact ⟨_, List.mem_cons_self, rfl⟩
    · obtain ⟨x, hx, he⟩ := ih h; exact ⟨x, List.mem_cons_of_mem _ hx, he⟩

theorem noLines_get {o p : PyObj} {k : String} (h : NoLines o) (hg : o.get k = some p) : NoLines p := by
  cases o with
  | scalar v => cases hg
  | list l => cases hg
  | dict line l =>
    obtain ⟨x, hx, rfl⟩ := mem_of_lookup l k p hg
    exact (noLinesPairs_iff l).1 h.2 x hx

theorem noLines_item {o p : PyObj} {i : Nat} (h : NoLines o) (hg : o.item i = some p) : NoLines p := by
  cases o with
  | scalar v => cases hg
  | dict line l => cases hg
  | list l => exact (noLinesAll_iff l).1 h p (List.mem_of_getElem? hg)

theorem loadDoc_lines (n : Node) (i : Nat) : (loadDoc n).lines i = (none, none) := by
  have h := construct_noLines n
  have hentry : ∀ e, ((construct n).get "pipeline").bind (fun p => (p.get "tasks").bind (PyObj.item i)) = some e → NoLines e := by
    intro e he
    rw [Option.bind_eq_some_iff] at he
    obtain ⟨p, hp, he⟩ := he
    rw [Option.bind_eq_some_iff] at he
    obtain ⟨t, ht, he⟩ := he
    exact noLines_item (noLines_get (noLines_get h hp) ht) he
  unfold loadDoc
  simp only
  generalize ((construct n).get "pipeline").bind (fun p => (p.get "tasks").bind (PyObj.item i)) = e at hentry
  cases e with
  | none => rfl
  | some e =>
    have he := hentry e rfl
    simp only [Option.bind_some]
    rw [noLines_line he]
    cases hp : e.get "params" with
    | none => rfl
    | some p => simp only [Option.bind_some]; rw [noLines_line (noLines_get he hp)]

/-- An error that tells no line. -/
def Silent : Err → Prop
  | .config (some _) => False
  | _ => True

theorem silent_lift (e : Config.Err) : Silent (lift none e) := by cases e <;> trivial

theorem group_silent (W : World) (hu : ∀ l e, W.update l = .error e → Silent e) (g : Val) (e : Err) (h : groupOf W g = .error e) : Silent e := by
  unfold groupOf at h
  cases g with
  | dict d => cases h
  | list l => exact hu _ _ h
  | tuple l => exact hu _ _ h
  | str s =>
    dsimp only at h
    split at h
    · cases h
    · cases h; trivial
  | _ => cases h; trivial

theorem addGroups_silent (W : World) (hu : ∀ l e, W.update l = .error e → Silent e) (doc : Cfg) : ∀ (ks : List Val) (ps : Cfg) (e : Err),
    addGroups W doc ks ps = .error e → Silent e := by
  intro ks
  induction ks with
  | nil => intro ps e h; cases h
  | cons k ks ih =>
    intro ps e h
    cases k with
    | str k =>
      rw [addGroups] at h
      cases hk : doc.lookup k with
      | none => rw [hk] at h; cases h; trivial
      | some g =>
        rw [hk] at h
        dsimp only at h
        cases hg : groupOf W g with
        | error e' => rw [hg] at h; cases h; exact group_silent W hu g _ hg
        | ok d => rw [hg] at h; exact ih _ _ h
    | list l => cases h; trivial
    | dict d => cases h; trivial
    | _ => cases h; trivial

theorem params_silent (W : World) (hu : ∀ l e, W.update l = .error e → Silent e) (doc : Cfg) (s : Spec) (e : Err) (h : paramsOf W doc s = .error e) : Silent e := by
  unfold paramsOf at h
  split at h
  · cases h
  · cases h
  · exact addGroups_silent W hu doc _ _ _ h
  · exact addGroups_silent W hu doc _ _ _ h

theorem findClass_silent (W : World) (v : Val) (e : Err) (h : findClass W v = .error e) : Silent e := by
  unfold findClass at h
  cases v with
  | str s =>
    dsimp only at h
    repeat' split at h
    all_goals (cases h; try trivial)
  | _ => cases h; trivial

theorem getTask_silent (W : World) (hu : ∀ l e, W.update l = .error e → Silent e) (doc base : Cfg) (s : Spec) (hl : s.line = none) (hp : s.paramsLine = none) (e : Err)
    (h : getTask W doc base s = .error e) : Silent e := by
  have hloc : paramsLocation s = none := by
    unfold paramsLocation
    split
    · exact hl
    · exact hp
    · rfl
  unfold getTask at h
  split at h
  · cases h; trivial
  · split at h
    · cases h; trivial
    · rename_i v _
      cases hf : findClass W v with
      | error e' => rw [hf] at h; cases h; exact findClass_silent W v _ hf
      | ok t =>
        rw [hf] at h
        dsimp only at h
        cases hq : paramsOf W doc s with
        | error e' => rw [hq] at h; cases h; exact params_silent W hu doc s _ hq
        | ok ps =>
          rw [hq] at h
          dsimp only at h
          cases t with
          | other => cases h; trivial
          | task name classes =>
            dsimp only at h
            split at h
            · cases h
            · cases h; rw [hloc]; exact silent_lift _

theorem relocate_silent (s : Spec) (hl : s.line = none) (e : Err) (h : Silent e) : Silent (relocate s e) := by
  cases e with
  | config line =>
    cases line with
    | none => unfold relocate; rw [hl]; trivial
    | some k => exact absurd h id
  | _ => trivial

theorem buildAll_silent (W : World) (hu : ∀ l e, W.update l = .error e → Silent e) (doc base : Cfg) : ∀ (ss : List Spec), (∀ s ∈ ss, s.line = none ∧ s.paramsLine = none) →
    ∀ e, buildAll W doc base ss = .error e → Silent e := by
  intro ss
  induction ss with
  | nil => intro _ e h; cases h
  | cons s ss ih =>
    intro hs e h
    obtain ⟨h1, h2⟩ := hs s List.mem_cons_self
    rw [buildAll] at h
    cases hg : getTask W doc base s with
    | error e' => rw [hg] at h; cases h; exact relocate_silent s h1 _ (getTask_silent W hu doc base s h1 h2 _ hg)
    | ok t =>
      rw [hg] at h
      dsimp only at h
      split at h
      · cases hb : buildAll W doc base ss with
        | error e' => rw [hb] at h; cases h; exact ih (fun s hs' => hs s (List.mem_cons_of_mem _ hs')) _ hb
        | ok ts => rw [hb] at h; cases h
      · cases h; exact relocate_silent s h1 _ trivial

theorem specsOf_lines (lines : Nat → Option Nat × Option Nat) (h : ∀ i, lines i = (none, none)) : ∀ (vs : List Val) (i : Nat),
    (∀ e, specsOf lines i vs = .error e → Silent e) ∧ ∀ ss, specsOf lines i vs = .ok ss → ∀ s ∈ ss, s.line = none ∧ s.paramsLine = none := by
  intro vs
  induction vs with
  | nil => intro i; exact ⟨fun e he => (by cases he), fun ss hs => by cases hs; simp⟩
  | cons v vs ih =>
    intro i
    cases v with
    | dict d =>
      rw [specsOf]
      obtain ⟨ih1, ih2⟩ := ih (i + 1)
      cases hs : specsOf lines (i + 1) vs with
      | error e' => exact ⟨fun e he => by cases he; exact ih1 _ hs, fun ss hss => by cases hss⟩
      | ok ss' =>
        refine ⟨fun e he => (by cases he), fun ss hss => ?_⟩
        cases hss
        intro s hmem
        rcases List.mem_cons.1 hmem with rfl | hmem
        · rw [h i]; exact ⟨rfl, rfl⟩
        · exact ih2 _ hs s hmem
    | _ => exact ⟨fun e he => (by cases he; trivial), fun ss hss => by cases hss⟩

theorem fromYaml_silent (W : World) (lint : Bool) (doc : Doc) (hu : ∀ l e, W.update l = .error e → Silent e)
    (hv : ∀ ss, (∀ s ∈ ss, s.line = none ∧ s.paramsLine = none) → ∀ e, W.valid ss = some e → Silent e) (hd : ∀ i, doc.lines i = (none, none)) (e : Err)
    (h : fromYaml W lint doc = .error e) : Silent e := by
  unfold fromYaml at h
  split at h
  · rename_i d hd'
    split at h
    · cases h; trivial
    · rename_i p hp
      simp only at h
      split at h
      · cases h; exact silent_lift _
      · unfold finishManager at h
        split at h
        · rename_i vs save levels specs _ _ _ _
          simp only at h
          obtain ⟨l1, l2⟩ := specsOf_lines doc.lines hd specs 0
          cases hs : specsOf doc.lines 0 specs with
          | error e' => rw [hs] at h; cases h; exact l1 _ hs
          | ok ss =>
            rw [hs] at h
            dsimp only at h
            have hlines := l2 _ hs
            split at h
            · rename_i e' hst
              cases h
              unfold setupTasks at hst
              split at hst
              · rename_i e'' hval
                cases hst
                exact hv ss hlines _ hval
              · exact buildAll_silent W hu _ _ ss hlines _ hst
            · cases h
        · cases h; exact silent_lift _
        · cases h; exact silent_lift _
        · cases h; exact silent_lift _
        · cases h; trivial
    · cases h; trivial
  · cases h; trivial

/-! ### Properties -/

/-- **C83** (violated) For no document does an error tell a line. The loader makes each mapping with its line, but the library puts the entries into a new mapping that has none. (Assumes that
the validation of the task list, which is outside this model, knows no other lines than those of the entries, and that `dict.update` raises no configuration error.) -/
theorem C83_line_violated (W : World) (lint : Bool) (n : Node) (hu : ∀ l k, W.update l ≠ .error (.config (some k)))
    (hv : ∀ ss, (∀ s ∈ ss, s.line = none ∧ s.paramsLine = none) → ∀ k, W.valid ss ≠ some (.config (some k))) (k : Nat) :
    fromYaml W lint (loadDoc n) ≠ .error (.config (some k)) ∧ (constructMapping k []).line = some (k + 1) := by
  refine ⟨fun h => ?_, rfl⟩
  refine fromYaml_silent W lint (loadDoc n) ?_ ?_ (loadDoc_lines n) _ h
  · intro l e he
    cases e with
    | config line =>
      cases line with
      | none => trivial
      | some j => exact absurd he (hu l j)
    | _ => trivial
  · intro ss hs e he
    cases e with
    | config line =>
      cases line with
      | none => trivial
      | some j => exact absurd he (hv ss hs j)
    | _ => trivial

/-- A document with a mistake on line 3. -/
def exNode : Node := .map 0 [("pipeline", .map 1 [("tasks", .seq [.map 2 [("type", .scalar (.str "no.such.Task"))]])])]

example : fromYaml exWorld true (loadDoc exNode) = .error (.config none) := rfl

/-- What is loaded is otherwise right: the items in order, of equal keys the last. -/
theorem C83_loaded (line : Nat) (l : List (String × Node)) (hd : (l.map Prod.fst).Nodup) :
    (construct (.map line l)).val = .dict (l.map fun x => (x.1, (construct x.2).val)) := by
  have hset : ∀ (d : List (String × PyObj)) (k : String) (v : PyObj), k ∉ d.map Prod.fst → setKey d k v = d ++ [(k, v)] := by
    intro d k v hk
    unfold setKey
    rw [if_neg]
    intro h
    rw [List.any_eq_true] at h
    obtain ⟨x, hx, he⟩ := h
    exact hk (List.mem_map.2 ⟨x, hx, by simpa using he⟩)
  have hfold : ∀ (m d : List (String × PyObj)), ((d ++ m).map Prod.fst).Nodup → m.foldl (fun d x => setKey d x.1 x.2) d = d ++ m := by
    intro m
    induction m with
    | nil => intro d _; simp
    | cons x m ih =>
      intro d h
      have hx : x.1 ∉ d.map Prod.fst := by
        intro hx
        rw [List.map_append, List.nodup_append] at h
        exact h.2.2 _ hx _ (by simp) rfl
      rw [List.foldl_cons, hset _ _ _ hx, ih]
      · simp
      · simpa using h
  have hpairs : ∀ l : List (String × Node), constructPairs l = l.map fun x => (x.1, construct x.2) := by
    intro l
    induction l with
    | nil => rfl
    | cons x l ih => obtain ⟨k, n⟩ := x; rw [constructPairs, ih]; rfl
  have hvals : ∀ m : List (String × PyObj), PyObj.pairs m = m.map fun x => (x.1, x.2.val) := by
    intro m
    induction m with
    | nil => rfl
    | cons x m ih => obtain ⟨k, n⟩ := x; rw [PyObj.pairs, ih]; rfl
  simp only [construct, constructMapping, updateEmpty, PyObj.val]
  rw [hpairs, toDict, hfold _ [] (by simpa [Function.comp_def] using hd), hvals]
  simp

example : (construct exNode).val = .dict [("pipeline", .dict [("tasks", .list [.dict [("type", .str "no.such.Task")]])])] := rfl

end Verif.Build
