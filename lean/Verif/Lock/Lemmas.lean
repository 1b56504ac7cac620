import Verif.Lock.Model

namespace Verif.Lock

/-! ## Helper lemmas -/

theorem set_same (fs : FS) (p : Path) (n : Option Node) : fs.set p n p = n := by simp [FS.set]

theorem set_ne (fs : FS) (p q : Path) (n : Option Node) (h : q ≠ p) : fs.set p n q = fs q := by
  simp [FS.set, h]

theorem dot_ne (s : String) : "." ++ s ≠ s := by
  intro h
  have := congrArg String.length h
  simp [String.length_append] at this

theorem dotlock_ne (s : String) : "." ++ s ++ ".lock" ≠ s := by
  intro h
  have := congrArg String.length h
  rw [String.length_append, String.length_append] at this
  have h1 : ".".length = 1 := rfl
  have h2 : ".lock".length = 5 := rfl
  omega

theorem lock_ne_tmp_base (s : String) : "." ++ s ++ ".lock" ≠ "." ++ s := by
  intro h
  have := congrArg String.length h
  simp [String.length_append] at this

theorem tmp_ne (p : Path) : tmpOf p ≠ p := by
  intro h
  exact dot_ne p.base (congrArg Path.base h)

theorem lock_ne (p : Path) : lockOf p ≠ p := by
  intro h
  exact dotlock_ne p.base (congrArg Path.base h)

theorem lock_ne_tmp (p : Path) : lockOf p ≠ tmpOf p := by
  intro h
  exact lock_ne_tmp_base p.base (congrArg Path.base h)

theorem afterBody_avoids (fs : FS) (body : List Change) (p : Path) (h : ∀ c ∈ body, c.1 ≠ p) :
    afterBody fs body p = fs p := by
  unfold afterBody
  induction body generalizing fs with
  | nil => rfl
  | cons c cs ih =>
    rw [List.foldl_cons, ih _ (fun x hx => h x (List.mem_cons_of_mem _ hx))]
    exact set_ne _ _ _ _ (Ne.symm (h c (by simp)))

theorem afterBody_congr (fs fs' : FS) (body : List Change) (p : Path) (h : fs p = fs' p) :
    afterBody fs body p = afterBody fs' body p := by
  unfold afterBody
  induction body generalizing fs fs' with
  | nil => exact h
  | cons c cs ih =>
    rw [List.foldl_cons, List.foldl_cons]
    apply ih
    simp only [FS.apply, FS.set]
    split
    · rfl
    · exact h

theorem bodyStates_avoids (fs : FS) (body : List Change) (p : Path) (h : ∀ c ∈ body, c.1 ≠ p) :
    ∀ s ∈ bodyStates fs body, s p = fs p := by
  induction body generalizing fs with
  | nil => simp [bodyStates]
  | cons c cs ih =>
    intro s hs
    have hc : fs.apply c p = fs p := set_ne _ _ _ _ (Ne.symm (h c (by simp)))
    rcases List.mem_cons.1 hs with rfl | hs
    · exact hc
    · rw [ih _ (fun x hx => h x (List.mem_cons_of_mem _ hx)) s hs, hc]

theorem remove_other (fs fs' : FS) (p q : Path) (h : fs.remove p = .ok fs') (hq : q ≠ p) :
    fs' q = fs q := by
  unfold FS.remove at h
  split at h
  · exact absurd h (by simp)
  · exact absurd h (by simp)
  · rw [← Except.ok.inj h, set_ne _ _ _ _ hq]

theorem remove_gone (fs fs' : FS) (p : Path) (h : fs.remove p = .ok fs') : fs' p = none := by
  unfold FS.remove at h
  split at h
  · exact absurd h (by simp)
  · exact absurd h (by simp)
  · rw [← Except.ok.inj h, set_same]

theorem rename_spec (fs fs' : FS) (p q : Path) (hpq : q ≠ p) (h : fs.rename p q = .ok fs') :
    ∃ n, fs p = some n ∧ fs' q = some n ∧ fs' p = none ∧ ∀ r, r ≠ p → r ≠ q → fs' r = fs r := by
  unfold FS.rename at h
  split at h
  · exact absurd h (by simp)
  · exact absurd h (by simp)
  · exact absurd h (by simp)
  · exact absurd h (by simp)
  · rw [← Except.ok.inj h]
    refine ⟨_, by assumption, ?_, ?_, ?_⟩
    · rw [set_ne _ _ _ _ hpq, set_same]
    · rw [set_same]
    · intro r hr1 hr2
      rw [set_ne _ _ _ _ hr1, set_ne _ _ _ _ hr2]

theorem dropLock_dest (fs : FS) (name : Path) (exc : Option Exc) (p : Path) (hp : p ≠ lockOf name) :
    (∀ s ∈ (dropLock fs name exc).states, s p = fs p) ∧ (dropLock fs name exc).final p = fs p := by
  unfold dropLock
  split
  · rename_i fs' h
    have := remove_other _ _ _ _ h hp
    refine ⟨?_, this⟩
    intro s hs
    obtain rfl : s = fs' := by simpa using hs
    exact this
  · simp

theorem dropLock_ok (fs : FS) (name : Path) (exc : Option Exc) (c : List Nat)
    (h : fs (lockOf name) = some (.file c)) :
    (dropLock fs name exc).exc = exc ∧ (dropLock fs name exc).final = fs.set (lockOf name) none := by
  simp [dropLock, FS.remove, h]

theorem lock_there (fs : FS) (name : Path) (body : List Change)
    (hbody : ∀ c ∈ body, c.1 ≠ lockOf name) :
    afterBody (enter fs name) body (lockOf name) = some (.file []) := by
  rw [afterBody_avoids _ _ _ hbody]
  exact set_same _ _ _

/-- The step reads and writes only the given paths. -/
def LocalTo (P : Path → Prop) (s : Step) : Prop :=
  (∀ fs p, ¬ P p → s fs p = fs p) ∧
  (∀ fs fs' : FS, (∀ p, P p → fs p = fs' p) → ∀ p, P p → s fs p = s fs' p)

theorem local_set (P : Path → Prop) (q : Path) (n : Option Node) (hq : P q) :
    LocalTo P (fun fs => fs.set q n) := by
  constructor
  · intro fs p hp
    exact set_ne _ _ _ _ (fun e => hp (e ▸ hq))
  · intro fs fs' h p hp
    by_cases e : p = q
    · subst e; simp only [set_same]
    · simp only [set_ne _ _ _ _ e]; exact h p hp

theorem removeStep_eq (p : Path) (fs : FS) :
    removeStep p fs = match fs p with | some (.file _) => fs.set p none | _ => fs := by
  unfold removeStep FS.remove
  rcases h : fs p with _ | (_ | _) <;> rfl

theorem local_remove (P : Path → Prop) (q : Path) (hq : P q) : LocalTo P (removeStep q) := by
  constructor
  · intro fs p hp
    rw [removeStep_eq]
    split
    · exact set_ne _ _ _ _ (fun e => hp (e ▸ hq))
    · rfl
  · intro fs fs' h p hp
    rw [removeStep_eq, removeStep_eq, h q hq]
    split
    · exact (local_set P q none hq).2 fs fs' h p hp
    · exact h p hp

theorem local_rename (P : Path → Prop) (q r : Path) (hq : P q) (hr : P r) :
    LocalTo P (renameStep q r) := by
  constructor
  · intro fs p hp
    unfold renameStep FS.rename
    have h1 : p ≠ q := fun e => hp (e ▸ hq)
    have h2 : p ≠ r := fun e => hp (e ▸ hr)
    split <;> simp [Except.toOption, set_ne, h1, h2]
  · intro fs fs' h p hp
    unfold renameStep FS.rename
    rw [h q hq, h r hr]
    split <;> simp only [Except.toOption, Option.getD_some, Option.getD_none] <;>
      first
      | exact h p hp
      | exact (local_set P q none hq).2 _ _ ((local_set P r _ hr).2 fs fs' h) p hp

theorem runSteps_local (P Q : Path → Prop) (hPQ : ∀ p, P p → ¬ Q p) (a b c : List Step)
    (h : Interleaving a b c) (ha : ∀ s ∈ a, LocalTo P s) (hb : ∀ s ∈ b, LocalTo Q s)
    (fs fs' : FS) (hfs : ∀ p, P p → fs p = fs' p) :
    ∀ p, P p → runSteps fs c p = runSteps fs' a p := by
  induction h generalizing fs fs' with
  | nil => exact hfs
  | left _ ih =>
    rename_i s _
    have hs := ha s (by simp)
    exact ih (fun x hx => ha x (List.mem_cons_of_mem _ hx)) hb (s fs) (s fs')
      (hs.2 fs fs' hfs)
  | right _ ih =>
    rename_i s _
    have hs := hb s (by simp)
    refine ih ha (fun x hx => hb x (List.mem_cons_of_mem _ hx)) (s fs) fs' ?_
    intro p hp
    rw [hs.1 fs p (hPQ p hp)]
    exact hfs p hp

theorem Interleaving.symm {a b c : List Step} (h : Interleaving a b c) : Interleaving b a c := by
  induction h with
  | nil => exact .nil
  | left _ ih => exact .right ih
  | right _ ih => exact .left ih

/-- The paths a block on `name` uses. -/
def Uses (name p : Path) : Prop := p = name ∨ p = tmpOf name ∨ p = lockOf name

theorem writer_local (name : Path) (body : List Change) (hbody : ∀ c ∈ body, c.1 = tmpOf name) :
    ∀ s ∈ writer name body, LocalTo (Uses name) s := by
  intro s hs
  simp only [writer, List.cons_append, List.mem_cons, List.mem_append, List.mem_map,
    List.not_mem_nil, or_false] at hs
  rcases hs with rfl | ⟨c, hc, rfl⟩ | rfl | rfl
  · exact local_set _ _ _ (.inr (.inr rfl))
  · exact local_set _ _ _ (.inr (.inl (hbody c hc)))
  · exact local_rename _ _ _ (.inr (.inl rfl)) (.inl rfl)
  · exact local_remove _ _ (.inr (.inr rfl))

theorem runSteps_changes (fs : FS) (body : List Change) (rest : List Step) :
    runSteps fs ((body.map fun c fs => FS.apply fs c) ++ rest) = runSteps (afterBody fs body) rest := by
  unfold runSteps afterBody
  rw [List.foldl_append, List.foldl_map]

theorem writer_publishes (fs : FS) (name : Path) (body : List Change)
    (hbody : ∀ c ∈ body, c.1 = tmpOf name) (new : List Nat)
    (htmp : afterBody (enter fs name) body (tmpOf name) = some (.file new))
    (hdest : ∀ l, fs name ≠ some (.dir l)) :
    runSteps fs (writer name body) name = some (.file new) ∧
      runSteps fs (writer name body) (tmpOf name) = none ∧
      runSteps fs (writer name body) (lockOf name) = none := by
  have hd : ∀ l, afterBody (enter fs name) body name ≠ some (.dir l) := by
    intro l
    rw [afterBody_avoids _ _ _ (fun c hc => by rw [hbody c hc]; exact tmp_ne name),
      show enter fs name name = fs name from set_ne _ _ _ _ (Ne.symm (lock_ne name))]
    exact hdest l
  have hlock := lock_there fs name body
    (fun c hc => by rw [hbody c hc]; exact Ne.symm (lock_ne_tmp name))
  have hren : renameStep (tmpOf name) name (afterBody (enter fs name) body)
      = ((afterBody (enter fs name) body).set name (some (.file new))).set (tmpOf name) none := by
    unfold renameStep FS.rename
    rw [htmp]
    rcases h : afterBody (enter fs name) body name with _ | (c | c)
    · rfl
    · rfl
    · exact absurd h (hd c)
  have hrun : runSteps fs (writer name body) = removeStep (lockOf name)
      (renameStep (tmpOf name) name (afterBody (enter fs name) body)) := by
    change runSteps (enter fs name) ((body.map fun c fs => FS.apply fs c) ++ _) = _
    rw [runSteps_changes]
    rfl
  have hl : (((afterBody (enter fs name) body).set name (some (.file new))).set (tmpOf name) none)
      (lockOf name) = some (.file []) := by
    rw [set_ne _ _ _ _ (lock_ne_tmp name), set_ne _ _ _ _ (lock_ne name), hlock]
  rw [hrun, hren, removeStep_eq, hl]
  simp only
  refine ⟨?_, ?_, set_same _ _ _⟩
  · rw [set_ne _ _ _ _ (Ne.symm (lock_ne name)), set_ne _ _ _ _ (Ne.symm (tmp_ne name)), set_same]
  · rw [set_ne _ _ _ _ (Ne.symm (lock_ne_tmp name)), set_same]

end Verif.Lock
