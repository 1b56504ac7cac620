import Verif.Views.Model
import Mathlib.Tactic.Common

/-!
# C94: dataset objects, views and copies
-/
namespace Verif.Views

variable {V A : Type} (shape : V → List Nat) (procs : Nat)

/-! ### Helper lemmas -/

theorem run_append (s : State V A) (p q : List (Op V A)) : run shape procs s (p ++ q) = run shape procs (run shape procs s p) q := by
  induction p generalizing s with
  | nil => rfl
  | cons op p ih => exact ih _

/-- The memory and the dictionaries that are referred to exist. -/
structure WF (s : State V A) : Prop where
  stored : ∀ n b, s.stored n = some b → b.name = n ∧ b.mem < s.mems.length ∧ b.attrs < s.dicts.length
  handles : ∀ h ∈ s.handles, h.mem < s.mems.length ∧ h.attrs < s.dicts.length

theorem wf_empty : WF (State.empty : State V A) := ⟨by simp [State.empty], by simp [State.empty]⟩

theorem getElem?_of_lt {β : Type} {l : List β} {i : Nat} (h : i < l.length) : ∃ x, l[i]? = some x := ⟨l[i], List.getElem?_eq_getElem h⟩

/-- What one redistribution of a stored dataset gives. -/
structure Moves (procs : Nat) (s : State V A) (b : Dset) (v : V) (a axis : Nat) (r : Dset × List V) : Prop where
  name : r.1.name = b.name
  attrs : r.1.attrs = b.attrs
  chunks : r.1.chunks = b.chunks
  filter : r.1.filter = b.filter
  axis' : r.1.axis = some axis
  long : s.mems.length ≤ r.2.length
  old : ∀ k < s.mems.length, r.2[k]? = s.mems[k]?
  data : r.2[r.1.mem]? = some v
  mem : r.1.mem = b.mem ∨ r.1.mem = s.mems.length
  mem' : r.1.mem < r.2.length

theorem moved_spec (s : State V A) (b : Dset) (v : V) (a axis : Nat) (hb : b.axis = some a) (hv : s.mems[b.mem]? = some v) :
    Moves procs s b v a axis (moved procs s b v a axis) := by
  have hlt : b.mem < s.mems.length := by
    rcases Nat.lt_or_ge b.mem s.mems.length with h | h
    · exact h
    · rw [List.getElem?_eq_none h] at hv
      cases hv
  unfold moved
  by_cases h1 : a = axis
  · subst h1
    rw [if_pos rfl]
    exact ⟨rfl, rfl, rfl, rfl, hb, Nat.le_refl _, fun _ _ => rfl, hv, .inl rfl, hlt⟩
  · rw [if_neg h1]
    by_cases h2 : procs = 1
    · rw [if_pos h2]
      exact ⟨rfl, rfl, rfl, rfl, rfl, Nat.le_refl _, fun _ _ => rfl, hv, .inl rfl, hlt⟩
    · rw [if_neg h2]
      refine ⟨rfl, rfl, rfl, rfl, rfl, by simp, fun k hk => by simp only; rw [List.getElem?_append_left hk], by simp, .inr rfl, by simp⟩

/-- A redistribution leaves everything, or is a `Moves`. -/
theorem redistribute_cases (s : State V A) (i : Nat) (h : Dset) (axis : Nat) :
    ((redistribute procs s i h axis).1 = s ∧ ((redistribute procs s i h axis).2 ≠ none ∨ ∃ b, s.stored h.name = some b ∧ s.mems[b.mem]? = none)) ∨
    ∃ b v a r, s.stored h.name = some b ∧ b.axis = some a ∧ h.axis ≠ none ∧ s.mems[b.mem]? = some v ∧ Moves procs s b v a axis r ∧
      redistribute procs s i h axis = (⟨fun m => if m = h.name then some r.1 else s.stored m, s.handles.set i { h with mem := r.1.mem, axis := r.1.axis }, r.2, s.dicts⟩, none) := by
  unfold redistribute
  cases h0 : h.axis with
  | none => exact .inl ⟨rfl, .inl (by simp)⟩
  | some _ =>
    simp only
    cases h1 : s.stored h.name with
    | none => exact .inl ⟨rfl, .inl (by simp)⟩
    | some b =>
      simp only
      cases h2 : b.axis with
      | none => exact .inl ⟨rfl, .inl (by simp)⟩
      | some a =>
        simp only
        cases h3 : s.mems[b.mem]? with
        | none => exact .inl ⟨rfl, .inr ⟨b, rfl, h3⟩⟩
        | some v =>
          exact .inr ⟨b, v, a, moved procs s b v a axis, rfl, h2, by simp, h3, moved_spec procs s b v a axis h2 h3, rfl⟩

theorem mem_set_cases {β : Type} {l : List β} {i : Nat} {x y : β} (h : y ∈ l.set i x) : y = x ∨ y ∈ l := by
  rcases List.mem_or_eq_of_mem_set h with h | h
  · exact .inr h
  · exact .inl h

theorem wf_step (s : State V A) (w : WF s) (op : Op V A) : WF (step shape procs s op).1 := by
  cases op with
  | create n v axis chunks filter =>
    simp only [step, create]
    refine ⟨?_, ?_⟩
    · intro m b hb
      simp only at hb
      split_ifs at hb with h
      · cases hb
        simp [h]
      · obtain ⟨h1, h2, h3⟩ := w.stored m b hb
        simp only [List.length_append, List.length_singleton]
        exact ⟨h1, by omega, by omega⟩
    · intro h hh
      simp only [List.mem_append, List.mem_singleton] at hh
      rcases hh with hh | rfl
      · obtain ⟨h2, h3⟩ := w.handles h hh
        simp only [List.length_append, List.length_singleton]
        exact ⟨by omega, by omega⟩
      · simp
  | get n =>
    simp only [step, get]
    split
    · exact w
    · rename_i b hb
      refine ⟨w.stored, fun h hh => ?_⟩
      simp only [List.mem_append, List.mem_singleton] at hh
      rcases hh with hh | rfl
      · exact w.handles h hh
      · exact (w.stored n _ hb).2
  | delete n =>
    simp only [step, delete]
    split
    · exact w
    · refine ⟨fun m b hb => ?_, w.handles⟩
      simp only at hb
      split_ifs at hb
      exact w.stored m b hb
  | write i f =>
    simp only [step]
    split
    · exact w
    · exact ⟨by simpa using w.stored, by simpa using w.handles⟩
  | setAttr i k a =>
    simp only [step]
    split
    · exact w
    · exact ⟨by simpa using w.stored, by simpa using w.handles⟩
  | setChunks i c =>
    simp only [step]
    split
    · exact w
    · rename_i h hh
      split
      · exact w
      · split
        · exact w
        · refine ⟨w.stored, fun g hg => ?_⟩
          rcases mem_set_cases hg with rfl | hg
          · exact w.handles h (List.mem_of_getElem? hh)
          · exact w.handles g hg
  | setFilter i c =>
    simp only [step]
    split
    · exact w
    · rename_i h hh
      refine ⟨w.stored, fun g hg => ?_⟩
      rcases mem_set_cases hg with rfl | hg
      · exact w.handles h (List.mem_of_getElem? hh)
      · exact w.handles g hg
  | copy i =>
    simp only [step]
    split
    · exact w
    · split
      · exact w
      · split
        · exact w
        · simp only [copy]
          refine ⟨fun m b hb => ?_, fun g hg => ?_⟩
          · obtain ⟨h1, h2, h3⟩ := w.stored m b hb
            simp only [List.length_append, List.length_singleton]
            exact ⟨h1, by omega, by omega⟩
          · simp only [List.mem_append, List.mem_singleton] at hg
            rcases hg with hg | rfl
            · obtain ⟨h2, h3⟩ := w.handles g hg
              simp only [List.length_append, List.length_singleton]
              exact ⟨by omega, by omega⟩
            · simp
  | redistribute i axis =>
    simp only [step]
    split
    · exact w
    · rename_i h hh
      rcases redistribute_cases procs s i h axis with ⟨e, -⟩ | ⟨b, v, a, r, hb, -, -, -, M, e⟩
      · rw [e]
        exact w
      · rw [e]
        obtain ⟨q1, q2, q3⟩ := w.stored _ b hb
        refine ⟨fun m c hc => ?_, fun g hg => ?_⟩
        · simp only at hc
          split_ifs at hc with hm
          · cases hc
            rw [M.name, M.attrs]
            exact ⟨by rw [q1, hm], M.mem', q3⟩
          · obtain ⟨h1, h2, h3⟩ := w.stored m c hc
            exact ⟨h1, Nat.lt_of_lt_of_le h2 M.long, h3⟩
        · rcases mem_set_cases hg with rfl | hg
          · exact ⟨M.mem', (w.handles h (List.mem_of_getElem? hh)).2⟩
          · obtain ⟨h2, h3⟩ := w.handles g hg
            exact ⟨Nat.lt_of_lt_of_le h2 M.long, h3⟩

theorem wf_run (s : State V A) (w : WF s) (ops : List (Op V A)) : WF (run shape procs s ops) := by
  induction ops generalizing s with
  | nil => exact w
  | cons op ops ih => exact ih _ (wf_step shape procs s w op)

/-- The name of an object. -/
def nameOf (s : State V A) (i : Nat) : Option String := s.handles[i]?.map (·.name)

/-- Objects keep their names. -/
theorem nameOf_step (s : State V A) (op : Op V A) (i : Nat) (n : String) (h : nameOf s i = some n) : nameOf (step shape procs s op).1 i = some n := by
  unfold nameOf at h ⊢
  have hi : i < s.handles.length := by
    rcases Nat.lt_or_ge i s.handles.length with q | q
    · exact q
    · rw [List.getElem?_eq_none q] at h
      cases h
  have hset : ∀ (j : Nat) (g g' : Dset), s.handles[j]? = some g → g'.name = g.name → ((s.handles.set j g')[i]?).map (·.name) = some n := by
    intro j g g' hj hg
    by_cases hij : j = i
    · subst hij
      rw [List.getElem?_set_self hi, Option.map_some, hg]
      rw [hj] at h
      exact h
    · rw [List.getElem?_set_ne hij]
      exact h
  have happ : ∀ g : Dset, ((s.handles ++ [g])[i]?).map (·.name) = some n := by
    intro g
    rw [List.getElem?_append_left hi]
    exact h
  cases op with
  | create m v axis chunks filter => exact happ _
  | get m =>
    simp only [step, get]
    split
    · exact h
    · exact happ _
  | delete m =>
    simp only [step, delete]
    split <;> exact h
  | write j f =>
    simp only [step]
    split <;> exact h
  | setAttr j k a =>
    simp only [step]
    split <;> exact h
  | setChunks j c =>
    simp only [step]
    split
    · exact h
    · rename_i g hg
      split
      · exact h
      · split
        · exact h
        · exact hset j g _ hg rfl
  | setFilter j c =>
    simp only [step]
    split
    · exact h
    · rename_i g hg
      exact hset j g _ hg rfl
  | copy j =>
    simp only [step]
    split
    · exact h
    · split
      · exact h
      · split
        · exact h
        · exact happ _
  | redistribute j axis =>
    simp only [step]
    split
    · exact h
    · rename_i g hg
      rcases redistribute_cases procs s j g axis with ⟨e, -⟩ | ⟨b, v, a, r, -, -, -, -, -, e⟩
      · rw [e]
        exact h
      · rw [e]
        exact hset j g _ hg rfl

theorem nameOf_run (s : State V A) (ops : List (Op V A)) (i : Nat) (n : String) (h : nameOf s i = some n) : nameOf (run shape procs s ops) i = some n := by
  induction ops generalizing s with
  | nil => exact h
  | cons op ops ih => exact ih _ (nameOf_step shape procs s op i n h)

/-- Object `i` refers to what is stored under `n`. -/
def Linked (s : State V A) (i : Nat) (n : String) : Prop :=
  ∃ h b, s.handles[i]? = some h ∧ s.stored n = some b ∧ h.name = n ∧ h.mem = b.mem ∧ h.axis = b.axis ∧ h.attrs = b.attrs

/-- Operations that cut the link of object `i` to the name. -/
def Cuts (s : State V A) (i : Nat) (n : String) : Op V A → Prop
  | .create m _ _ _ _ => m = n
  | .delete m => m = n
  | .redistribute j _ => j ≠ i ∧ nameOf s j = some n
  | _ => False

theorem linked_step (s : State V A) (op : Op V A) (i : Nat) (n : String) (hl : Linked s i n) (hc : ¬ Cuts s i n op) : Linked (step shape procs s op).1 i n := by
  obtain ⟨h, b, hi, hb, h1, h2, h3, h4⟩ := hl
  have hlt : i < s.handles.length := by
    rcases Nat.lt_or_ge i s.handles.length with q | q
    · exact q
    · rw [List.getElem?_eq_none q] at hi
      cases hi
  cases op with
  | create m v axis chunks filter =>
    have hm : ¬ n = m := fun e => hc e.symm
    exact ⟨h, b, by simp only [step, create]; rw [List.getElem?_append_left hlt]; exact hi, by simp only [step, create]; rw [if_neg hm]; exact hb, h1, h2, h3, h4⟩
  | get m =>
    simp only [step, get]
    split
    · exact ⟨h, b, hi, hb, h1, h2, h3, h4⟩
    · exact ⟨h, b, by simp only; rw [List.getElem?_append_left hlt]; exact hi, hb, h1, h2, h3, h4⟩
  | delete m =>
    have hm : ¬ n = m := fun e => hc e.symm
    simp only [step, delete]
    split
    · exact ⟨h, b, hi, hb, h1, h2, h3, h4⟩
    · exact ⟨h, b, hi, by simp only; rw [if_neg hm]; exact hb, h1, h2, h3, h4⟩
  | write j f =>
    simp only [step]
    split <;> exact ⟨h, b, hi, hb, h1, h2, h3, h4⟩
  | setAttr j k a =>
    simp only [step]
    split <;> exact ⟨h, b, hi, hb, h1, h2, h3, h4⟩
  | setChunks j c =>
    simp only [step]
    split
    · exact ⟨h, b, hi, hb, h1, h2, h3, h4⟩
    · rename_i g hg
      split
      · exact ⟨h, b, hi, hb, h1, h2, h3, h4⟩
      · split
        · exact ⟨h, b, hi, hb, h1, h2, h3, h4⟩
        · rename_i c' _
          by_cases hij : j = i
          · subst hij
            rw [hi] at hg
            cases hg
            exact ⟨{ h with chunks := c' }, b, by simp only; rw [List.getElem?_set_self hlt], hb, h1, h2, h3, h4⟩
          · exact ⟨h, b, by simp only; rw [List.getElem?_set_ne hij]; exact hi, hb, h1, h2, h3, h4⟩
  | setFilter j c =>
    simp only [step]
    split
    · exact ⟨h, b, hi, hb, h1, h2, h3, h4⟩
    · rename_i g hg
      by_cases hij : j = i
      · subst hij
        rw [hi] at hg
        cases hg
        exact ⟨{ h with filter := c }, b, by simp only; rw [List.getElem?_set_self hlt], hb, h1, h2, h3, h4⟩
      · exact ⟨h, b, by simp only; rw [List.getElem?_set_ne hij]; exact hi, hb, h1, h2, h3, h4⟩
  | copy j =>
    simp only [step]
    split
    · exact ⟨h, b, hi, hb, h1, h2, h3, h4⟩
    · split
      · exact ⟨h, b, hi, hb, h1, h2, h3, h4⟩
      · split
        · exact ⟨h, b, hi, hb, h1, h2, h3, h4⟩
        · exact ⟨h, b, by simp only [copy]; rw [List.getElem?_append_left hlt]; exact hi, hb, h1, h2, h3, h4⟩
  | redistribute j axis =>
    simp only [step]
    split
    · exact ⟨h, b, hi, hb, h1, h2, h3, h4⟩
    · rename_i g hg
      rcases redistribute_cases procs s j g axis with ⟨e, -⟩ | ⟨b', v, a, r, hb', -, -, -, M, e⟩
      · rw [e]
        exact ⟨h, b, hi, hb, h1, h2, h3, h4⟩
      · rw [e]
        by_cases hij : j = i
        · subst hij
          rw [hi] at hg
          cases hg
          rw [h1, hb] at hb'
          cases hb'
          exact ⟨{ h with mem := r.1.mem, axis := r.1.axis }, r.1, by simp only; rw [List.getElem?_set_self hlt], by simp only; rw [if_pos h1.symm], h1, rfl, rfl, by simp only; rw [h4, M.attrs]⟩
        · have hn : ¬ n = g.name := fun e => hc ⟨hij, by simp [nameOf, hg, e]⟩
          exact ⟨h, b, by simp only; rw [List.getElem?_set_ne hij]; exact hi, by simp only; rw [if_neg hn]; exact hb, h1, h2, h3, h4⟩

/-- No operation of the program, at the state in which it is done, cuts the link. -/
def NoCut (s : State V A) (i : Nat) (n : String) : List (Op V A) → Prop
  | [] => True
  | op :: ops => ¬ Cuts s i n op ∧ NoCut (step shape procs s op).1 i n ops

theorem linked_run (s : State V A) (ops : List (Op V A)) (i : Nat) (n : String) (hl : Linked s i n) (hc : NoCut shape procs s i n ops) :
    Linked (run shape procs s ops) i n := by
  induction ops generalizing s with
  | nil => exact hl
  | cons op ops ih => exact ih _ (linked_step shape procs s op i n hl hc.1) hc.2

theorem nocut_of (s : State V A) (ops : List (Op V A)) (i : Nat) (n : String)
    (hc : ∀ op ∈ ops, (∀ v a c f, op ≠ .create n v a c f) ∧ op ≠ .delete n)
    (hr : ∀ j a, .redistribute j a ∈ ops → j ≠ i → nameOf (run shape procs s ops) j ≠ some n) : NoCut shape procs s i n ops := by
  induction ops generalizing s with
  | nil => trivial
  | cons op ops ih =>
    refine ⟨?_, ih _ (fun o ho => hc o (List.mem_cons_of_mem _ ho)) fun j a h1 h2 => hr j a (List.mem_cons_of_mem _ h1) h2⟩
    obtain ⟨hc1, hc2⟩ := hc op List.mem_cons_self
    cases op with
    | create m v a c f => exact fun h => hc1 v a c f (by rw [show m = n from h])
    | delete m => exact fun h => hc2 (by rw [show m = n from h])
    | redistribute j a => exact fun h => hr j a List.mem_cons_self h.1 (nameOf_run shape procs s _ j n h.2)
    | _ => exact id

/-! ### Properties -/

/-- A dataset as the program sees it, without the way it is to be written to files. -/
def Seen.content {V A : Type} (x : Seen V A) : String × V × Option Nat × (String → Option A) := (x.name, x.data, x.axis, x.attrs)

theorem linked_seen (s : State V A) (w : WF s) (i : Nat) (n : String) (hl : Linked s i n) :
    ∃ x y, seen s i = some x ∧ fresh s n = some y ∧ x.content = y.content ∧ x.name = n := by
  obtain ⟨h, b, hi, hb, h1, h2, h3, h4⟩ := hl
  obtain ⟨q1, q2, q3⟩ := w.stored n b hb
  obtain ⟨v, hv⟩ := getElem?_of_lt q2
  obtain ⟨d, hd⟩ := getElem?_of_lt q3
  refine ⟨⟨h.name, v, h.axis, d, h.chunks, h.filter⟩, ⟨b.name, v, b.axis, d, b.chunks, b.filter⟩, ?_, ?_, ?_, h1⟩
  · simp [seen, hi, look, h2, h4, hv, hd]
  · simp [fresh, hb, look, hv, hd]
  · simp [Seen.content, h1, q1, h3]

/-- **C94** An object that a program gets for a name is the dataset: after any further operations, through this and any other objects, it shows the contents, the axis and the attributes
that a newly gotten object shows. Missing: programs that replace or delete the dataset, or that redistribute it through another object for the name (or a copy). -/
theorem C94_view_partial (pre ops : List (Op V A)) (n : String) (hn : fresh (run shape procs State.empty pre) n ≠ none) (i : Nat) (hi : i = (run shape procs State.empty pre).handles.length)
    (hc : ∀ op ∈ ops, (∀ v a c f, op ≠ .create n v a c f) ∧ op ≠ .delete n)
    (hr : ∀ j a, .redistribute j a ∈ ops → j ≠ i → nameOf (run shape procs State.empty (pre ++ .get n :: ops)) j ≠ some n) :
    ∃ x y, seen (run shape procs State.empty (pre ++ .get n :: ops)) i = some x ∧ fresh (run shape procs State.empty (pre ++ .get n :: ops)) n = some y ∧ x.content = y.content ∧ x.name = n := by
  rw [run_append] at hr ⊢
  have w := wf_run shape procs State.empty wf_empty pre
  generalize run shape procs State.empty pre = s at *
  rw [run] at hr ⊢
  cases hb : s.stored n with
  | none => simp [fresh, hb] at hn
  | some b =>
    have e : (step shape procs s (.get n)).1 = { s with handles := s.handles ++ [b] } := by simp [step, get, hb]
    have w' := wf_step shape procs s w (.get n)
    have hl : Linked (step shape procs s (.get n)).1 i n := by
      rw [e]
      exact ⟨b, b, by simp [hi], hb, (w.stored n b hb).1, rfl, rfl, rfl⟩
    exact linked_seen _ (wf_run shape procs _ w' ops) i n (linked_run shape procs _ ops i n hl (nocut_of shape procs _ ops i n hc hr))

example : ∃ x y : Seen Nat Nat, seen (run (fun _ => []) 2 State.empty ([.create "/x" 5 (some 0) none none] ++ .get "/x" :: [.write 0 (· + 1), .redistribute 1 1, .get "/x", .write 1 (· * 2)])) 1 = some x ∧
    fresh (run (fun _ => []) 2 State.empty ([.create "/x" 5 (some 0) none none] ++ .get "/x" :: [.write 0 (· + 1), .redistribute 1 1, .get "/x", .write 1 (· * 2)])) "/x" = some y ∧ x.content = y.content ∧ x.name = "/x" :=
  C94_view_partial (fun _ => []) 2 [.create "/x" 5 (some 0) none none] [.write 0 (· + 1), .redistribute 1 1, .get "/x", .write 1 (· * 2)] "/x" (by decide) 1 rfl (by simp) (by simp)

example : (fresh (run (A := Nat) (fun _ => []) 2 State.empty [.create "/x" 5 (some 0) none none, .get "/x", .write 0 (· + 1), .redistribute 1 1, .get "/x", .write 1 (· * 2)]) "/x").map (·.data) = some 12 := rfl

/-- **C94** (negation) After a redistribution through one object, another object for the same name is cut off: with several processes what is written through it is lost; with one process it is not, but the other object shows
the old axis. -/
theorem C94_older_violated (v : V) (f : V → V) :
    let s := run (A := A) shape procs State.empty [.create "/x" v (some 0) none none, .get "/x", .redistribute 1 1, .write 0 f]
    (procs ≠ 1 → (fresh s "/x").map (·.data) = some v ∧ (seen s 0).map (·.data) = some (f v)) ∧ (procs = 1 → (fresh s "/x").map (·.data) = some (f v)) ∧
      (fresh s "/x").map (·.axis) = some (some 1) ∧ (seen s 0).map (·.axis) = some (some 0) := by
  by_cases h : procs = 1 <;> simp [run, step, create, get, redistribute, moved, State.empty, fresh, seen, look, h, List.modify_zero_cons]

example : (fresh (run (A := Nat) (fun _ => []) 2 State.empty [.create "/x" 5 (some 0) none none, .get "/x", .redistribute 1 1, .write 0 (· + 1)]) "/x").map (·.data) = some 5 :=
  ((C94_older_violated (A := Nat) (fun _ => []) 2 5 (· + 1)).1 (by decide)).1

/-- **C94** The chunks of an object: none; or one size for each axis, at most the length of the axis. Others are refused, and nothing changes. -/
theorem C94_chunks (s : State V A) (i : Nat) (x : Seen V A) (hx : seen s i = some x) (c : Option (List Nat)) :
    (c = none → (step shape procs s (.setChunks i c)).2 = none ∧ seen (step shape procs s (.setChunks i c)).1 i = some { x with chunks := none }) ∧
    (∀ l, c = some l → l.length ≠ (shape x.data).length → step shape procs s (.setChunks i c) = (s, some .valueError)) ∧
    (∀ l, c = some l → l.length = (shape x.data).length → ∃ l' : List Nat, (step shape procs s (.setChunks i c)).2 = none ∧ seen (step shape procs s (.setChunks i c)).1 i = some { x with chunks := some l' } ∧
      l'.length = l.length ∧ ∀ (k a b : Nat), l[k]? = some a → (shape x.data)[k]? = some b → l'[k]? = some (min a b)) := by
  unfold seen at hx
  cases hi : s.handles[i]? with
  | none => simp [hi] at hx
  | some h =>
    have hlt : i < s.handles.length := by
      rcases Nat.lt_or_ge i s.handles.length with q | q
      · exact q
      · rw [List.getElem?_eq_none q] at hi
        cases hi
    simp only [hi, Option.bind_some, look] at hx
    cases hv : s.mems[h.mem]? with
    | none => simp [hv] at hx
    | some v =>
      cases hd : s.dicts[h.attrs]? with
      | none => simp [hv, hd] at hx
      | some d =>
        simp only [hv, hd, Option.some.injEq] at hx
        subst hx
        refine ⟨?_, ?_, ?_⟩
        · rintro rfl
          simp only [step, hi, hv, chunksFor]
          refine ⟨trivial, ?_⟩
          simp [seen, hlt, look, hv, hd]
        · rintro l rfl hl
          simp [step, hi, hv, chunksFor, hl]
        · rintro l rfl hl
          refine ⟨List.zipWith min l (shape v), ?_, ?_, by simp [hl], ?_⟩
          · simp [step, hi, hv, chunksFor, hl]
          · have hl' : ¬ l.length ≠ (shape v).length := by simpa using hl
            simp only [step, hi, hv, chunksFor, if_neg hl']
            simp [seen, hlt, look, hv, hd]
          · intro k a b ha hb
            simp [List.getElem?_zipWith, ha, hb]

example : (seen (run (V := List Nat) (A := Nat) (fun v => [v.length]) 1 State.empty [.create "/x" [1, 2, 3] none none none, .setChunks 0 (some [5])]) 0).map (·.chunks) = some (some [3]) := by decide

/-- **C94** (negation) The chunks and the compression that are set on an object from the group are not those of the dataset: another object does not show them (nor are they used when the group is written, which gets its own objects). -/
theorem C94_chunks_violated (v : V) (a b : Nat) (hv : shape v = [a]) :
    let s := run (A := A) shape procs State.empty [.create "/x" v none none none, .get "/x", .setChunks 1 (some [b]), .setFilter 1 (some 4)]
    (seen s 1).map (fun x => (x.chunks, x.filter)) = some (some [min b a], some 4) ∧ (fresh s "/x").map (fun x => (x.chunks, x.filter)) = some (none, none) := by
  simp [run, step, create, get, chunksFor, State.empty, fresh, seen, look, hv]

example : (fresh (run (V := List Nat) (A := Nat) (fun v => [v.length]) 1 State.empty [.create "/x" [1, 2, 3] none none none, .get "/x", .setChunks 1 (some [2]), .setFilter 1 (some 4)]) "/x").map (·.chunks) = some none := by decide

/-! ### Copies -/

/-- Memory and attributes of object `c` are used by nothing else. -/
structure Alone (s : State V A) (c : Nat) (h : Dset) : Prop where
  handle : s.handles[c]? = some h
  others : ∀ j g, j ≠ c → s.handles[j]? = some g → g.mem ≠ h.mem ∧ g.attrs ≠ h.attrs
  stored : ∀ n b, s.stored n = some b → b.mem ≠ h.mem ∧ b.attrs ≠ h.attrs

/-- Operations through object `c`. -/
def Through (c : Nat) : Op V A → Prop
  | .write i _ => i = c
  | .setAttr i _ _ => i = c
  | .setChunks i _ => i = c
  | .setFilter i _ => i = c
  | .redistribute i _ => i = c
  | _ => False

theorem lt_of_some {β : Type} {l : List β} {i : Nat} {x : β} (h : l[i]? = some x) : i < l.length := by
  rcases Nat.lt_or_ge i l.length with q | q
  · exact q
  · rw [List.getElem?_eq_none q] at h
    cases h

/-- Adding an object keeps `Alone`. -/
theorem alone_append (s : State V A) (c : Nat) (h g : Dset) (st : String → Option Dset) (m : List V) (d : List (String → Option A)) (al : Alone s c h) (hg : g.mem ≠ h.mem ∧ g.attrs ≠ h.attrs)
    (hst : ∀ n b, st n = some b → b.mem ≠ h.mem ∧ b.attrs ≠ h.attrs) : Alone (⟨st, s.handles ++ [g], m, d⟩ : State V A) c h := by
  have hlt := lt_of_some al.handle
  refine ⟨by simp only; rw [List.getElem?_append_left hlt]; exact al.handle, fun j k hj hk => ?_, hst⟩
  simp only at hk
  rcases Nat.lt_or_ge j s.handles.length with q | q
  · rw [List.getElem?_append_left q] at hk
    exact al.others j k hj hk
  · rw [List.getElem?_append_right q] at hk
    have := lt_of_some hk
    simp only [List.length_singleton] at this
    rw [show j - s.handles.length = 0 by omega] at hk
    simp only [List.getElem?_cons_zero, Option.some.injEq] at hk
    subst hk
    exact hg

/-- Changing another object keeps `Alone`. -/
theorem alone_set (s : State V A) (c j : Nat) (hj : j ≠ c) (h g : Dset) (st : String → Option Dset) (m : List V) (d : List (String → Option A)) (al : Alone s c h) (hg : g.mem ≠ h.mem ∧ g.attrs ≠ h.attrs)
    (hst : ∀ n b, st n = some b → b.mem ≠ h.mem ∧ b.attrs ≠ h.attrs) : Alone (⟨st, s.handles.set j g, m, d⟩ : State V A) c h := by
  refine ⟨by simp only; rw [List.getElem?_set_ne hj]; exact al.handle, fun k x hk hx => ?_, hst⟩
  simp only at hx
  by_cases hkj : j = k
  · subst hkj
    have := lt_of_some hx
    rw [List.length_set] at this
    rw [List.getElem?_set_self this] at hx
    cases hx
    exact hg
  · rw [List.getElem?_set_ne hkj] at hx
    exact al.others k x hk hx

/-- Operations through other objects leave what object `c` shows. -/
theorem alone_step (s : State V A) (w : WF s) (c : Nat) (h : Dset) (al : Alone s c h) (op : Op V A) (ho : ¬ Through c op) :
    Alone (step shape procs s op).1 c h ∧ look (step shape procs s op).1 h = look s h := by
  have hw := w.handles h (List.mem_of_getElem? al.handle)
  have hlook : ∀ (t : State V A), t.mems[h.mem]? = s.mems[h.mem]? → t.dicts[h.attrs]? = s.dicts[h.attrs]? → look t h = look s h := by
    intro t h1 h2
    unfold look
    rw [h1, h2]
  cases op with
  | create n v axis chunks filter =>
    refine ⟨alone_append s c h _ _ _ _ al ⟨by simp only; omega, by simp only; omega⟩ fun m b hb => ?_, hlook _ ?_ ?_⟩
    · split_ifs at hb
      · cases hb
        exact ⟨by simp only; omega, by simp only; omega⟩
      · exact al.stored m b hb
    · simp only [step, create]
      rw [List.getElem?_append_left hw.1]
    · simp only [step, create]
      rw [List.getElem?_append_left hw.2]
  | get n =>
    simp only [step, get]
    split
    · exact ⟨al, rfl⟩
    · rename_i b hb
      exact ⟨alone_append s c h _ _ _ _ al (al.stored n b hb) al.stored, rfl⟩
  | delete n =>
    simp only [step, delete]
    split
    · exact ⟨al, rfl⟩
    · refine ⟨⟨al.handle, al.others, fun m b hb => ?_⟩, rfl⟩
      simp only at hb
      split_ifs at hb
      exact al.stored m b hb
  | write i f =>
    simp only [step]
    split
    · exact ⟨al, rfl⟩
    · rename_i g hg
      refine ⟨⟨al.handle, al.others, al.stored⟩, hlook _ ?_ rfl⟩
      have := (al.others i g ho hg).1
      simp [this]
  | setAttr i k a =>
    simp only [step]
    split
    · exact ⟨al, rfl⟩
    · rename_i g hg
      refine ⟨⟨al.handle, al.others, al.stored⟩, hlook _ rfl ?_⟩
      have := (al.others i g ho hg).2
      simp [this]
  | setChunks i x =>
    simp only [step]
    split
    · exact ⟨al, rfl⟩
    · rename_i g hg
      split
      · exact ⟨al, rfl⟩
      · split
        · exact ⟨al, rfl⟩
        · exact ⟨alone_set s c i ho h _ _ _ _ al (al.others i g ho hg) al.stored, rfl⟩
  | setFilter i x =>
    simp only [step]
    split
    · exact ⟨al, rfl⟩
    · rename_i g hg
      exact ⟨alone_set s c i ho h _ _ _ _ al (al.others i g ho hg) al.stored, rfl⟩
  | copy i =>
    simp only [step]
    split
    · exact ⟨al, rfl⟩
    · split
      · exact ⟨al, rfl⟩
      · split
        · exact ⟨al, rfl⟩
        · refine ⟨alone_append s c h _ _ _ _ al ⟨by simp only; omega, by simp only; omega⟩ al.stored, hlook _ ?_ ?_⟩
          · simp only [copy]
            rw [List.getElem?_append_left hw.1]
          · simp only [copy]
            rw [List.getElem?_append_left hw.2]
  | redistribute i axis =>
    simp only [step]
    split
    · exact ⟨al, rfl⟩
    · rename_i g hg
      rcases redistribute_cases procs s i g axis with ⟨e, -⟩ | ⟨b, v, a, r, hb, -, -, -, M, e⟩
      · rw [e]
        exact ⟨al, rfl⟩
      · rw [e]
        have hr : r.1.mem ≠ h.mem := by
          rcases M.mem with q | q
          · rw [q]
            exact (al.stored _ b hb).1
          · rw [q]
            omega
        refine ⟨alone_set s c i ho h _ _ _ _ al ⟨hr, (al.others i g ho hg).2⟩ fun m x hx => ?_, hlook _ (M.old _ hw.1) rfl⟩
        split_ifs at hx
        · cases hx
          exact ⟨hr, by rw [M.attrs]; exact (al.stored _ b hb).2⟩
        · exact al.stored m x hx

theorem alone_run (s : State V A) (w : WF s) (c : Nat) (h : Dset) (al : Alone s c h) (ops : List (Op V A)) (ho : ∀ op ∈ ops, ¬ Through c op) :
    Alone (run shape procs s ops) c h ∧ look (run shape procs s ops) h = look s h := by
  induction ops generalizing s with
  | nil => exact ⟨al, rfl⟩
  | cons op ops ih =>
    obtain ⟨h1, h2⟩ := alone_step shape procs s w c h al op (ho op List.mem_cons_self)
    obtain ⟨h3, h4⟩ := ih _ (wf_step shape procs s w op) h1 fun o q => ho o (List.mem_cons_of_mem _ q)
    exact ⟨h3, h4.trans h2⟩

/-- A copy is alone, and shows what the original shows. -/
theorem copy_alone (s : State V A) (w : WF s) (i : Nat) (x : Seen V A) (hx : seen s i = some x) :
    ∃ h, Alone (step shape procs s (.copy i)).1 s.handles.length h ∧ look (step shape procs s (.copy i)).1 h = some x := by
  unfold seen at hx
  cases hi : s.handles[i]? with
  | none => simp [hi] at hx
  | some g =>
    simp only [hi, Option.bind_some, look] at hx
    cases hv : s.mems[g.mem]? with
    | none => simp [hv] at hx
    | some v =>
      cases hd : s.dicts[g.attrs]? with
      | none => simp [hv, hd] at hx
      | some d =>
        simp only [hv, hd, Option.some.injEq] at hx
        subst hx
        simp only [step, hi, hv, hd, copy]
        refine ⟨{ g with mem := s.mems.length, attrs := s.dicts.length }, ⟨by simp, fun j k hj hk => ?_, fun n b hb => ?_⟩, by simp [look]⟩
        · simp only at hk
          rcases Nat.lt_or_ge j s.handles.length with q | q
          · rw [List.getElem?_append_left q] at hk
            obtain ⟨h1, h2⟩ := w.handles k (List.mem_of_getElem? hk)
            exact ⟨by simp only; omega, by simp only; omega⟩
          · have := lt_of_some hk
            simp only [List.length_append, List.length_singleton] at this
            omega
        · obtain ⟨-, h1, h2⟩ := w.stored n b hb
          exact ⟨by simp only; omega, by simp only; omega⟩

/-- **C94** A copy of a dataset keeps what the original had when it was made: its contents, attributes, axis, chunks and compression, whatever is done through other objects. -/
theorem C94_copy_keeps (pre ops : List (Op V A)) (i : Nat) (x : Seen V A) (hx : seen (run shape procs State.empty pre) i = some x) (c : Nat) (hc : c = (run shape procs State.empty pre).handles.length)
    (ho : ∀ op ∈ ops, ¬ Through c op) : seen (run shape procs State.empty (pre ++ .copy i :: ops)) c = some x := by
  rw [run_append, run]
  have w := wf_run shape procs State.empty wf_empty pre
  generalize run shape procs State.empty pre = s at *
  obtain ⟨h, al, hl⟩ := copy_alone shape procs s w i x hx
  subst hc
  obtain ⟨h1, h2⟩ := alone_run shape procs _ (wf_step shape procs s w (.copy i)) _ h al ops ho
  rw [seen, h1.handle, Option.bind_some, h2, hl]

example : (seen (run (A := Nat) (fun _ => []) 2 State.empty ([.create "/x" 5 (some 0) none none] ++ .copy 0 :: [.write 0 (· + 1), .redistribute 0 1, .setAttr 0 "k" 1, .delete "/x"])) 1).map (·.data) = some 5 := by
  obtain ⟨x, hx⟩ := Option.ne_none_iff_exists'.1 (show seen (run (A := Nat) (fun _ => []) 2 State.empty [.create "/x" 5 (some 0) none none]) 0 ≠ none by decide)
  rw [C94_copy_keeps (fun _ => []) 2 [.create "/x" 5 (some 0) none none] _ 0 x hx 1 rfl (by simp [Through])]
  cases hx
  rfl

/-- **C94** What is done through a copy, other than redistributing it, does not show in any other object nor in the datasets of the group. Missing: redistribution. -/
theorem C94_copy_apart_partial (pre ops : List (Op V A)) (i : Nat) (hx : seen (run shape procs State.empty pre) i ≠ none) (c : Nat) (hc : c = (run shape procs State.empty pre).handles.length)
    (ho : ∀ op ∈ ops, ¬ Through c op) (op : Op V A) (hop : Through c op) (hr : ∀ a, op ≠ .redistribute c a) :
    (∀ j, j ≠ c → seen (run shape procs State.empty (pre ++ .copy i :: ops ++ [op])) j = seen (run shape procs State.empty (pre ++ .copy i :: ops)) j) ∧
    ∀ n, fresh (run shape procs State.empty (pre ++ .copy i :: ops ++ [op])) n = fresh (run shape procs State.empty (pre ++ .copy i :: ops)) n := by
  obtain ⟨x, hx⟩ := Option.ne_none_iff_exists'.1 hx
  rw [run_append (q := [op]), run_append]
  have w := wf_run shape procs State.empty wf_empty pre
  generalize run shape procs State.empty pre = s at *
  rw [show run shape procs s (.copy i :: ops) = run shape procs (step shape procs s (.copy i)).1 ops from rfl]
  obtain ⟨h, al, -⟩ := copy_alone shape procs s w i x hx
  subst hc
  obtain ⟨al, -⟩ := alone_run shape procs _ (wf_step shape procs s w (.copy i)) _ h al ops ho
  generalize run shape procs (step shape procs s (.copy i)).1 ops = t at *
  generalize s.handles.length = c at *
  simp only [run]
  have key : ∀ g : Dset, g.mem ≠ h.mem → g.attrs ≠ h.attrs → look (step shape procs t op).1 g = look t g := by
    intro g h1 h2
    cases op with
    | write j f =>
      cases (show j = c from hop)
      simp only [step, al.handle, look]
      rw [List.getElem?_modify_ne _ _ (Ne.symm h1)]
    | setAttr j k a =>
      cases (show j = c from hop)
      simp only [step, al.handle, look]
      rw [List.getElem?_modify_ne _ _ (Ne.symm h2)]
    | setChunks j k =>
      simp only [step]
      split
      · rfl
      · split
        · rfl
        · split <;> rfl
    | setFilter j k =>
      simp only [step]
      split <;> rfl
    | redistribute j a => exact absurd (by rw [show j = c from hop]) (hr a)
    | _ => exact hop.elim
  have hh : ∀ j, j ≠ c → (step shape procs t op).1.handles[j]? = t.handles[j]? := by
    intro j hj
    cases op with
    | write k f =>
      simp only [step]
      split <;> rfl
    | setAttr k f a =>
      simp only [step]
      split <;> rfl
    | setChunks k x =>
      cases (show k = c from hop)
      simp only [step]
      split
      · rfl
      · split
        · rfl
        · split
          · rfl
          · simp only
            rw [List.getElem?_set_ne (Ne.symm hj)]
    | setFilter k x =>
      cases (show k = c from hop)
      simp only [step]
      split
      · rfl
      · simp only
        rw [List.getElem?_set_ne (Ne.symm hj)]
    | redistribute j a => exact absurd (by rw [show j = c from hop]) (hr a)
    | _ => exact hop.elim
  have hs : (step shape procs t op).1.stored = t.stored := by
    cases op with
    | write k f =>
      simp only [step]
      split <;> rfl
    | setAttr k f a =>
      simp only [step]
      split <;> rfl
    | setChunks k x =>
      simp only [step]
      split
      · rfl
      · split
        · rfl
        · split <;> rfl
    | setFilter k x =>
      simp only [step]
      split <;> rfl
    | redistribute j a => exact absurd (by rw [show j = c from hop]) (hr a)
    | _ => exact hop.elim
  refine ⟨fun j hj => ?_, fun n => ?_⟩
  · unfold seen
    rw [hh j hj]
    cases hg : t.handles[j]? with
    | none => rfl
    | some g =>
      obtain ⟨h1, h2⟩ := al.others j g hj hg
      exact key g h1 h2
  · unfold fresh
    rw [hs]
    cases hg : t.stored n with
    | none => rfl
    | some g =>
      obtain ⟨h1, h2⟩ := al.stored n g hg
      exact key g h1 h2

example : (fresh (run (A := Nat) (fun _ => []) 2 State.empty ([.create "/x" 5 (some 0) none none] ++ .copy 0 :: [] ++ [.write 1 (· + 1)])) "/x").map (·.data) = some 5 := by
  rw [(C94_copy_apart_partial (fun _ => []) 2 [.create "/x" 5 (some 0) none none] [] 0 (by decide) 1 rfl (by simp) (.write 1 (· + 1)) rfl (by simp)).2]
  rfl

/-- **C94** (negation) Redistributing a copy redistributes the original, and the copy is then the original: its own contents are lost, and what is written through it is written to the original. -/
theorem C94_copy_violated (v : V) (f g : V → V) :
    let s := run (A := A) shape procs State.empty [.create "/x" v (some 0) none none, .copy 0, .write 1 f, .redistribute 1 1]
    let t := run (A := A) shape procs State.empty [.create "/x" v (some 0) none none, .copy 0, .write 1 f, .redistribute 1 1, .write 1 g]
    (fresh s "/x").map (·.axis) = some (some 1) ∧ (seen s 1).map (·.data) = some v ∧ (fresh t "/x").map (·.data) = some (g v) := by
  by_cases h : procs = 1 <;> simp [run, step, create, copy, redistribute, moved, State.empty, fresh, seen, look, h, List.modify_succ_cons, List.modify_zero_cons]

example : (fresh (run (A := Nat) (fun _ => []) 4 State.empty [.create "/x" 5 (some 0) none none, .copy 0, .write 1 (· + 1), .redistribute 1 1, .write 1 (· * 10)]) "/x").map (·.data) = some 50 :=
  (C94_copy_violated (A := Nat) (fun _ => []) 4 5 (· + 1) (· * 10)).2.2

/-! ### Redistribution -/

theorem redistribute_spec (s : State V A) (w : WF s) (i axis : Nat) :
    (∀ j x, j ≠ i → seen s j = some x → seen (step shape procs s (.redistribute i axis)).1 j = some x) ∧
    (∀ n x, fresh s n = some x → fresh (step shape procs s (.redistribute i axis)).1 n = some x ∨
      nameOf s i = some n ∧ x.axis ≠ none ∧ fresh (step shape procs s (.redistribute i axis)).1 n = some { x with axis := some axis }) ∧
    ((step shape procs s (.redistribute i axis)).2 = none → ∃ n x y, nameOf s i = some n ∧ fresh (step shape procs s (.redistribute i axis)).1 n = some x ∧ x.axis = some axis ∧
      seen (step shape procs s (.redistribute i axis)).1 i = some y ∧ y.data = x.data ∧ y.axis = some axis) := by
  simp only [step]
  cases hi : s.handles[i]? with
  | none => exact ⟨fun _ _ _ h => h, fun _ _ h => .inl h, by simp⟩
  | some h =>
    have hlt := lt_of_some hi
    simp only
    rcases redistribute_cases procs s i h axis with ⟨e, e2⟩ | ⟨b, v, a, r, hb, ha, hax, hv, M, e⟩
    · simp only [e]
      refine ⟨fun _ _ _ h => h, fun _ _ h => .inl h, fun h2 => ?_⟩
      rcases e2 with e2 | ⟨b, hb, e2⟩
      · exact absurd h2 e2
      · have := (w.stored _ b hb).2.1
        rw [List.getElem?_eq_none_iff] at e2
        omega
    · simp only [e]
      have hw := w.stored _ b hb
      obtain ⟨d, hd⟩ := getElem?_of_lt hw.2.2
      obtain ⟨d', hd'⟩ := getElem?_of_lt (w.handles h (List.mem_of_getElem? hi)).2
      refine ⟨fun j x hj hx => ?_, fun n x hx => ?_, fun _ => ?_⟩
      · unfold seen at hx ⊢
        simp only
        rw [List.getElem?_set_ne (Ne.symm hj)]
        cases hg : s.handles[j]? with
        | none => simp [hg] at hx
        | some g =>
          simp only [hg, Option.bind_some, look] at hx ⊢
          rw [M.old _ (w.handles g (List.mem_of_getElem? hg)).1]
          exact hx
      · unfold fresh at hx ⊢
        simp only
        by_cases hn : n = h.name
        · right
          subst hn
          simp only [hb, Option.bind_some, look, hv, hd, Option.some.injEq] at hx
          subst hx
          refine ⟨by simp [nameOf, hi], by simp [ha], ?_⟩
          simp [look, M.data, M.attrs, hd, M.name, M.chunks, M.filter, M.axis']
        · left
          rw [if_neg hn]
          cases hg : s.stored n with
          | none => simp [hg] at hx
          | some g =>
            simp only [hg, Option.bind_some, look] at hx ⊢
            rw [M.old _ (w.stored n g hg).2.1]
            exact hx
      · refine ⟨h.name, ⟨r.1.name, v, r.1.axis, d, r.1.chunks, r.1.filter⟩, ⟨h.name, v, r.1.axis, d', h.chunks, h.filter⟩, by simp [nameOf, hi], ?_, M.axis', ?_, rfl, M.axis'⟩
        · simp [fresh, look, M.data, M.attrs, hd]
        · simp [seen, hlt, look, M.data, hd']

/-- **C94** A redistribution changes nobody's contents, attributes, chunks or compression, except those of an object that is cut off from the group; the dataset gets the axis, and keeps its contents. -/
theorem C94_redistribute (pre : List (Op V A)) (i axis : Nat) :
    let s := run shape procs State.empty pre
    let t := (step shape procs s (.redistribute i axis)).1
    (∀ j x, j ≠ i → seen s j = some x → seen t j = some x) ∧
    (∀ n x, fresh s n = some x → fresh t n = some x ∨ nameOf s i = some n ∧ x.axis ≠ none ∧ fresh t n = some { x with axis := some axis }) ∧
    ((step shape procs s (.redistribute i axis)).2 = none → ∃ n x y, nameOf s i = some n ∧ fresh t n = some x ∧ x.axis = some axis ∧ seen t i = some y ∧ y.data = x.data ∧ y.axis = some axis) := by
  exact redistribute_spec shape procs _ (wf_run shape procs State.empty wf_empty pre) i axis

example : (seen (step (fun _ => []) 3 (run (A := Nat) (fun _ => []) 3 State.empty [.create "/x" 5 (some 0) none none, .get "/x"]) (.redistribute 1 2)).1 0).map (·.data) = some 5 := rfl

/-- **C94** Asking for a name, or deleting it, is a `KeyError` that changes nothing if there is no dataset of that name; otherwise it succeeds: the new object shows the dataset, or the dataset is gone and the others stay. -/
theorem C94_missing (pre : List (Op V A)) (n : String) :
    let s := run shape procs State.empty pre
    (fresh s n = none → step shape procs s (.get n) = (s, some .keyError) ∧ step shape procs s (.delete n) = (s, some .keyError)) ∧
    ∀ x, fresh s n = some x → (step shape procs s (.get n)).2 = none ∧ seen (step shape procs s (.get n)).1 s.handles.length = some x ∧
      (step shape procs s (.delete n)).2 = none ∧ ∀ m, fresh (step shape procs s (.delete n)).1 m = if m = n then none else fresh s m := by
  have w := wf_run shape procs State.empty (wf_empty (V := V) (A := A)) pre
  generalize run shape procs State.empty pre = s at *
  cases hb : s.stored n with
  | none =>
    refine ⟨fun _ => by simp [step, get, delete, hb], fun x hx => ?_⟩
    simp [fresh, hb] at hx
  | some b =>
    obtain ⟨-, h1, h2⟩ := w.stored n b hb
    refine ⟨fun h => ?_, fun x hx => ?_⟩
    · simp [fresh, hb, look, h1, h2] at h
    · simp only [fresh, hb, Option.bind_some] at hx
      refine ⟨by simp [step, get, hb], ?_, by simp [step, delete, hb], fun m => ?_⟩
      · simp only [step, get, hb, seen, List.getElem?_concat_length, Option.bind_some]
        exact hx
      · simp only [step, delete, hb, fresh]
        split
        · rfl
        · rfl

/-- **C94** What is set through an object is seen through it: the attribute that is set and no other attribute is changed, and the contents are what the program made of the old ones. -/
theorem C94_set (pre : List (Op V A)) (i : Nat) (x : Seen V A) (k : String) (a : A) (f : V → V) :
    let s := run shape procs State.empty pre
    seen s i = some x →
    (∃ y, seen (step shape procs s (.setAttr i k a)).1 i = some y ∧ y.attrs k = some a ∧ (∀ k', k' ≠ k → y.attrs k' = x.attrs k') ∧ y.data = x.data ∧ y.axis = x.axis) ∧
    seen (step shape procs s (.write i f)).1 i = some { x with data := f x.data } := by
  intro s hx
  unfold seen at hx
  cases hi : s.handles[i]? with
  | none => simp [hi] at hx
  | some h =>
    simp only [hi, Option.bind_some, look] at hx
    cases hv : s.mems[h.mem]? with
    | none => simp [hv] at hx
    | some v =>
      cases hd : s.dicts[h.attrs]? with
      | none => simp [hv, hd] at hx
      | some d =>
        simp only [hv, hd, Option.some.injEq] at hx
        subst hx
        refine ⟨⟨⟨h.name, v, h.axis, fun k' => if k' = k then some a else d k', h.chunks, h.filter⟩, ?_, by simp, fun k' hk => by simp [hk], rfl, rfl⟩, ?_⟩
        · simp [step, seen, hi, look, hv, hd]
        · simp [step, seen, hi, look, hv, hd]

example : (seen (run (V := Nat) (A := Nat) (fun _ => []) 2 State.empty [.create "/x" 5 (some 0) none none, .setAttr 0 "j" 1]) 0).isSome := by decide

example : (fresh (run (V := Nat) (A := Nat) (fun _ => []) 2 State.empty [.create "/x" 5 (some 0) none none]) "/y").isNone ∧
    (fresh (run (V := Nat) (A := Nat) (fun _ => []) 2 State.empty [.create "/x" 5 (some 0) none none]) "/x").isSome := by decide

/-- **C94** (negation) An object for a dataset that was deleted still shows it, but cannot be redistributed; and if there is a new dataset of the name, redistributing the old object makes it the new dataset. -/
theorem C94_deleted_violated (v u : V) :
    let s := run (A := A) shape procs State.empty [.create "/x" v (some 0) none none, .delete "/x"]
    let t := run (A := A) shape procs State.empty [.create "/x" v (some 0) none none, .create "/x" u (some 0) none none]
    (seen s 0).map (·.data) = some v ∧ (step shape procs s (.redistribute 0 1)).2 = some .keyError ∧
      (seen t 0).map (·.data) = some v ∧ (seen (step shape procs t (.redistribute 0 1)).1 0).map (·.data) = some u := by
  by_cases h : procs = 1 <;> simp [run, step, create, delete, redistribute, moved, State.empty, seen, look, h]

example : (seen (step (fun _ => []) 3 (run (A := Nat) (fun _ => []) 3 State.empty [.create "/x" 5 (some 0) none none, .create "/x" 6 (some 0) none none]) (.redistribute 0 1)).1 0).map (·.data) = some 6 :=
  (C94_deleted_violated (A := Nat) (fun _ => []) 3 5 6).2.2.2

/-! ### Objects in the elements -/

mutual
/-- The python objects that an element refers to. -/
def Elem.refs : Elem → List Nat
  | .bytes _ => []
  | .ref r => [r]
  | .parts l => Elem.refsAll l
def Elem.refsAll : List Elem → List Nat
  | [] => []
  | x :: l => x.refs ++ Elem.refsAll l
end

mutual
/-- An element of a data type. -/
inductive OfType : DT → Elem → Prop
  | plain (n : Nat) : OfType .plain (.bytes n)
  | obj (r : Nat) : OfType .obj (.ref r)
  | tagged (r : Nat) : OfType .tagged (.ref r)
  | fields {ts xs} : OfTypes ts xs → OfType (.fields ts) (.parts xs)
  | array {n t xs} : xs.length = n → AllOf t xs → OfType (.array n t) (.parts xs)
inductive OfTypes : List (String × DT) → List Elem → Prop
  | nil : OfTypes [] []
  | cons {n t ts x xs} : OfType t x → OfTypes ts xs → OfTypes ((n, t) :: ts) (x :: xs)
inductive AllOf : DT → List Elem → Prop
  | nil {t} : AllOf t []
  | cons {t x xs} : OfType t x → AllOf t xs → AllOf t (x :: xs)
end

mutual
/-- Data types without objects anywhere. -/
def DT.noObjects : DT → Bool
  | .plain => true
  | .obj => false
  | .tagged => false
  | .fields l => DT.noObjectsAll l
  | .array _ t => t.noObjects
def DT.noObjectsAll : List (String × DT) → Bool
  | [] => true
  | (_, t) :: l => t.noObjects && DT.noObjectsAll l
end

/-- Data types with objects only where the copy looks for them: the type itself, or its fields. -/
def DT.flat : DT → Bool
  | .obj => true
  | .fields l => l.all fun x => x.2.isObj || x.2.noObjects
  | t => t.noObjects

mutual
theorem refs_of_noObjects {t : DT} {x : Elem} (h : OfType t x) (hn : t.noObjects = true) : x.refs = [] := by
  cases h with
  | plain n => simp [Elem.refs]
  | obj r => simp [DT.noObjects] at hn
  | tagged r => simp [DT.noObjects] at hn
  | fields h =>
    rw [Elem.refs]
    exact refsAll_of_noObjects h (by simpa [DT.noObjects] using hn)
  | array h1 h2 =>
    rw [Elem.refs]
    exact refsAll_of_allOf h2 (by simpa [DT.noObjects] using hn)
theorem refsAll_of_noObjects {ts : List (String × DT)} {xs : List Elem} (h : OfTypes ts xs) (hn : DT.noObjectsAll ts = true) : Elem.refsAll xs = [] := by
  cases h with
  | nil => simp [Elem.refsAll]
  | cons h1 h2 =>
    rw [DT.noObjectsAll, Bool.and_eq_true] at hn
    rw [Elem.refsAll, refs_of_noObjects h1 hn.1, refsAll_of_noObjects h2 hn.2]
    rfl
theorem refsAll_of_allOf {t : DT} {xs : List Elem} (h : AllOf t xs) (hn : t.noObjects = true) : Elem.refsAll xs = [] := by
  cases h with
  | nil => simp [Elem.refsAll]
  | cons h1 h2 =>
    rw [Elem.refsAll, refs_of_noObjects h1 hn, refsAll_of_allOf h2 hn]
    rfl
end

mutual
theorem refs_deep (new : Nat → Nat) (x : Elem) : (x.deep new).refs = x.refs.map new := by
  cases x with
  | bytes n => simp [Elem.deep, Elem.refs]
  | ref r => simp [Elem.deep, Elem.refs]
  | parts l =>
    rw [Elem.deep, Elem.refs, Elem.refs]
    exact refsAll_deep new l
theorem refsAll_deep (new : Nat → Nat) (l : List Elem) : Elem.refsAll (Elem.deepAll new l) = (Elem.refsAll l).map new := by
  cases l with
  | nil => simp [Elem.deepAll, Elem.refsAll]
  | cons x l => rw [Elem.deepAll, Elem.refsAll, Elem.refsAll, refs_deep new x, refsAll_deep new l, List.map_append]
end

theorem refs_copyFields (new : Nat → Nat) (ts : List (String × DT)) (xs : List Elem) (h : OfTypes ts xs) (hf : ∀ x ∈ ts, x.2.isObj = true ∨ x.2.noObjects = true) :
    Elem.refsAll (copyFields new ts xs) = (Elem.refsAll xs).map new := by
  induction ts generalizing xs with
  | nil =>
    cases h
    simp [copyFields, Elem.refsAll]
  | cons t ts ih =>
    cases h with
    | cons h1 h2 =>
      rw [copyFields, Elem.refsAll, Elem.refsAll, ih _ h2 fun y hy => hf y (List.mem_cons_of_mem _ hy), List.map_append]
      congr 1
      rcases hf _ List.mem_cons_self with hq | hq
      · simp only at hq
        rw [if_pos hq, refs_deep]
      · split_ifs
        · rw [refs_deep]
        · rw [refs_of_noObjects h1 hq]
          rfl

/-- **C94** A deep copy refers to copies of the objects, and to nothing of the original, if the objects are the elements or in their fields. Missing: objects deeper down. -/
theorem C94_objects_partial (new : Nat → Nat) (t : DT) (x : Elem) (h : OfType t x) (hf : t.flat = true) : (copyElem new t x).refs = x.refs.map new := by
  unfold copyElem
  cases t with
  | obj => simp [DT.isObj, refs_deep]
  | fields ts =>
    cases h with
    | fields h =>
      simp only [DT.isObj, Bool.false_eq_true, if_false, Elem.refs]
      refine refs_copyFields new ts _ h fun y hy => ?_
      simp only [DT.flat, List.all_eq_true, Bool.or_eq_true] at hf
      exact hf y hy
  | plain =>
    simp only [DT.isObj, Bool.false_eq_true, if_false]
    rw [refs_of_noObjects h hf]
    rfl
  | tagged => simp [DT.flat, DT.noObjects] at hf
  | array n t =>
    simp only [DT.isObj, Bool.false_eq_true, if_false]
    rw [refs_of_noObjects h hf]
    rfl

example : (copyElem (· + 100) (.fields [("a", .plain), ("b", .obj)]) (.parts [.bytes 1, .ref 7])).refs = [107] :=
  C94_objects_partial (· + 100) (.fields [("a", .plain), ("b", .obj)]) (.parts [.bytes 1, .ref 7]) (.fields (.cons (.plain 1) (.cons (.obj 7) .nil))) rfl

/-- **C94** (negation) Variable-length elements, arrays of objects in the elements, and objects in fields of fields are shared between a dataset and its deep copy. -/
theorem C94_objects_violated (new : Nat → Nat) (r : Nat) (n : String) :
    (copyElem new .tagged (.ref r)).refs = [r] ∧ (copyElem new (.array 1 .obj) (.parts [.ref r])).refs = [r] ∧
    (copyElem new (.fields [(n, .fields [(n, .obj)])]) (.parts [.parts [.ref r]])).refs = [r] := by
  simp [copyElem, copyFields, DT.isObj, Elem.refs, Elem.refsAll]

example : (copyElem (· + 100) .tagged (.ref 7)).refs = [7] := (C94_objects_violated (· + 100) 7 "a").1

end Verif.Views
