import Verif.Lock.Lemmas
import Verif.Lock.Many
import Mathlib.Data.List.Induction

/-! # Lemmas for any number of locked writes -/
namespace Verif.Lock

/-- The states of a process that is alone. -/
def statesOf (fs : FS) : List Call → List FS
  | [] => [fs]
  | c :: cs =>
    match c.run fs with
    | .ok fs' => fs :: statesOf fs' cs
    | .error _ => [fs]

def finalOf (fs : FS) : List Call → FS
  | [] => fs
  | c :: cs =>
    match c.run fs with
    | .ok fs' => finalOf fs' cs
    | .error _ => fs

def alone (fs : FS) (l : List Call) : Nat → FS × List Call
  | 0 => (fs, l)
  | k + 1 => advance (alone fs l k).1 (alone fs l k).2

theorem statesOf_head (fs : FS) (l : List Call) : fs ∈ statesOf fs l := by
  cases l with
  | nil => simp [statesOf]
  | cons c cs => rw [statesOf]; split <;> simp

theorem alone_invariant (fs : FS) (l : List Call) (k : Nat) :
    (∀ s ∈ statesOf (alone fs l k).1 (alone fs l k).2, s ∈ statesOf fs l) ∧
      finalOf (alone fs l k).1 (alone fs l k).2 = finalOf fs l ∧
      (alone fs l k).2.length ≤ l.length - k := by
  induction k with
  | zero => exact ⟨fun s hs => hs, rfl, by simp [alone]⟩
  | succ k ih =>
    rw [alone]
    generalize alone fs l k = a at ih
    obtain ⟨f, m⟩ := a
    obtain ⟨h1, h2, h3⟩ := ih
    cases m with
    | nil => exact ⟨h1, h2, by simp [advance]⟩
    | cons c cs =>
      simp only [advance]
      simp only [statesOf, finalOf, List.length_cons] at h1 h2 h3
      cases hc : c.run f with
      | ok f' =>
        simp only [hc] at h1 h2 ⊢
        exact ⟨fun s hs => h1 s (List.mem_cons_of_mem _ hs), h2, by omega⟩
      | error e =>
        simp only [hc] at h1 h2 ⊢
        exact ⟨fun s hs => h1 s (by simpa [statesOf] using hs), h2, by simp⟩

theorem alone_states (fs : FS) (l : List Call) (k : Nat) : (alone fs l k).1 ∈ statesOf fs l :=
  (alone_invariant fs l k).1 _ (statesOf_head _ _)

theorem alone_final (fs : FS) (l : List Call) (k : Nat) (h : (alone fs l k).2 = []) :
    (alone fs l k).1 = finalOf fs l := by
  rw [← (alone_invariant fs l k).2.1, h, finalOf]

theorem alone_done (fs : FS) (l : List Call) (k : Nat) (h : l.length ≤ k) : (alone fs l k).2 = [] := by
  have := (alone_invariant fs l k).2.2
  exact List.length_eq_zero_iff.1 (by omega)

/-! ## The block of `Verif.Lock.Model` -/

theorem statesOf_changes (fs : FS) (body : List Change) (rest : List Call) :
    statesOf fs ((body.map fun c => Call.set c.1 c.2) ++ rest) =
      match body with
      | [] => statesOf fs rest
      | _ => fs :: (bodyStates fs body).dropLast ++ statesOf (afterBody fs body) rest := by
  induction body generalizing fs with
  | nil => rfl
  | cons c cs ih =>
    simp only [List.map_cons, List.cons_append, statesOf, Call.run, bodyStates]
    rw [ih (fs.set c.1 c.2)]
    cases cs with
    | nil => simp [bodyStates, afterBody, FS.apply]
    | cons d ds =>
      simp [afterBody, FS.apply, bodyStates]

theorem finalOf_changes (fs : FS) (body : List Change) (rest : List Call) :
    finalOf fs ((body.map fun c => Call.set c.1 c.2) ++ rest) = finalOf (afterBody fs body) rest := by
  induction body generalizing fs with
  | nil => rfl
  | cons c cs ih =>
    simp only [List.map_cons, List.cons_append, finalOf, Call.run]
    rw [ih]
    rfl

theorem afterBody_mem (fs : FS) (body : List Change) : afterBody fs body ∈ fs :: bodyStates fs body := by
  induction body generalizing fs with
  | nil => simp [afterBody, bodyStates]
  | cons c cs ih =>
    have := ih (fs.apply c)
    simp only [afterBody, List.foldl_cons, bodyStates] at this ⊢
    exact List.mem_cons_of_mem _ this

theorem leave_states (fs : FS) (name : Path) (preserve : Bool) (exc : Option Exc) :
    let rest := match exc with
      | some _ => (if preserve then [] else [Call.remove (tmpOf name)]) ++ [Call.remove (lockOf name)]
      | none => [Call.rename (tmpOf name) name, Call.remove (lockOf name)]
    (∀ s ∈ statesOf fs rest, s = fs ∨ s ∈ (leave fs name preserve exc).states) ∧
      finalOf fs rest = (leave fs name preserve exc).final := by
  have hdrop : ∀ (f : FS) (e : Option Exc), (∀ s ∈ statesOf f [Call.remove (lockOf name)],
      s = f ∨ s ∈ (dropLock f name e).states) ∧ finalOf f [Call.remove (lockOf name)] = (dropLock f name e).final := by
    intro f e
    simp only [statesOf, finalOf, Call.run, dropLock]
    cases f.remove (lockOf name) <;> simp
  cases exc with
  | some e =>
    cases preserve with
    | true => exact hdrop fs (some e)
    | false =>
      simp only [leave, Bool.false_eq_true, if_false, List.cons_append, List.nil_append]
      rw [statesOf, finalOf]
      simp only [Call.run]
      cases fs.remove (tmpOf name) with
      | error e' => simp
      | ok fs' =>
        obtain ⟨h1, h2⟩ := hdrop fs' (some e)
        refine ⟨?_, h2⟩
        intro s hs
        rcases List.mem_cons.1 hs with rfl | hs
        · exact .inl rfl
        · rcases h1 s hs with rfl | h
          · exact .inr (by simp [Outcome.after])
          · exact .inr (by simp [Outcome.after, h])
  | none =>
    simp only [leave]
    rw [statesOf, finalOf]
    simp only [Call.run]
    cases fs.rename (tmpOf name) name with
    | error e' => simp
    | ok fs' =>
      obtain ⟨h1, h2⟩ := hdrop fs' none
      refine ⟨?_, h2⟩
      intro s hs
      rcases List.mem_cons.1 hs with rfl | hs
      · exact .inl rfl
      · rcases h1 s hs with rfl | h
        · exact .inr (by simp [Outcome.after])
        · exact .inr (by simp [Outcome.after, h])

/-- The outcome of the block of a job when its process is alone. -/
def Job.outcome (fs : FS) (j : Job) : Outcome := block fs j.name j.preserve j.body j.exc

theorem job_states (fs : FS) (j : Job) :
    (∀ s ∈ statesOf fs j.calls, s ∈ (j.outcome fs).states) ∧ finalOf fs j.calls = (j.outcome fs).final := by
  obtain ⟨l1, l2⟩ := leave_states (afterBody (enter fs j.name) j.body) j.name j.preserve j.exc
  have he : ∀ s, s ∈ (j.outcome fs).states ↔ s = fs ∨ s ∈ enter fs j.name :: bodyStates (enter fs j.name) j.body ∨
      s ∈ (leave (afterBody (enter fs j.name) j.body) j.name j.preserve j.exc).states := by
    intro s
    simp [Job.outcome, block, Outcome.after, or_assoc]
  constructor
  · intro s hs
    rw [he]
    simp only [Job.calls, List.cons_append, statesOf, Call.run] at hs
    rcases List.mem_cons.1 hs with rfl | hs
    · exact .inl rfl
    · right
      change s ∈ statesOf (enter fs j.name) _ at hs
      rw [statesOf_changes] at hs
      split at hs
      · rename_i hb
        have hf : afterBody (enter fs j.name) j.body = enter fs j.name := by rw [hb]; rfl
        rw [← hf] at hs
        rcases l1 s hs with h | h
        · left; rw [h]; exact afterBody_mem _ _
        · exact .inr h
      · rw [List.cons_append] at hs
        rcases List.mem_cons.1 hs with rfl | hs
        · simp
        · rcases List.mem_append.1 hs with hs | hs
          · exact .inl (List.mem_cons_of_mem _ (List.dropLast_subset _ hs))
          · rcases l1 s hs with h | h
            · left; rw [h]; exact afterBody_mem _ _
            · exact .inr h
  · simp only [Job.calls, List.cons_append, finalOf, Call.run]
    change finalOf (enter fs j.name) _ = _
    rw [finalOf_changes]
    exact l2

/-! ## Calls that use different paths -/

/-- The call reads and writes only the given paths. -/
def Within (P : Path → Prop) : Call → Prop
  | .set p _ => P p
  | .remove p => P p
  | .rename p q => P p ∧ P q

def Agree (P : Path → Prop) (fs fs' : FS) : Prop := ∀ p, P p → fs p = fs' p

theorem agree_set (P : Path → Prop) (fs fs' : FS) (h : Agree P fs fs') (q : Path) (n : Option Node) :
    Agree P (fs.set q n) (fs'.set q n) := by
  intro p hp
  by_cases e : p = q
  · subst e; simp only [set_same]
  · rw [set_ne _ _ _ _ e, set_ne _ _ _ _ e]; exact h p hp

theorem advance_agree (P : Path → Prop) (fs fs' : FS) (h : Agree P fs fs') (l : List Call) (hl : ∀ c ∈ l, Within P c) :
    Agree P (advance fs l).1 (advance fs' l).1 ∧ (advance fs l).2 = (advance fs' l).2 := by
  cases l with
  | nil => exact ⟨h, rfl⟩
  | cons c cs =>
    have hc := hl c (by simp)
    cases c with
    | set p n => exact ⟨agree_set P fs fs' h p n, rfl⟩
    | remove p =>
      have hp : fs p = fs' p := h p hc
      simp only [advance, Call.run, FS.remove, ← hp]
      rcases fs p with _ | (_ | _)
      · exact ⟨h, rfl⟩
      · exact ⟨agree_set P fs fs' h p none, rfl⟩
      · exact ⟨h, rfl⟩
    | rename p q =>
      have hp : fs p = fs' p := h p hc.1
      have hq : fs q = fs' q := h q hc.2
      simp only [advance, Call.run, FS.rename, ← hp, ← hq]
      have hset : ∀ n, Agree P ((fs.set q (some n)).set p none) ((fs'.set q (some n)).set p none) :=
        fun n => agree_set P _ _ (agree_set P fs fs' h q (some n)) p none
      rcases fs p with _ | (_ | _) <;> rcases fs q with _ | (_ | (_ | ⟨_, _⟩)) <;>
        first
        | exact ⟨h, rfl⟩
        | exact ⟨hset _, rfl⟩

theorem advance_other (P : Path → Prop) (fs : FS) (l : List Call) (hl : ∀ c ∈ l, Within P c) (p : Path) (hp : ¬ P p) :
    (advance fs l).1 p = fs p := by
  cases l with
  | nil => rfl
  | cons c cs =>
    have hc := hl c (by simp)
    cases c with
    | set q n => exact set_ne _ _ _ _ (fun e => hp (e ▸ hc))
    | remove q =>
      simp only [advance, Call.run, FS.remove]
      have hne : p ≠ q := fun e => hp (e ▸ hc)
      rcases fs q with _ | (_ | _)
      · rfl
      · exact set_ne _ _ _ _ hne
      · rfl
    | rename q r =>
      have h1 : p ≠ q := fun e => hp (e ▸ hc.1)
      have h2 : p ≠ r := fun e => hp (e ▸ hc.2)
      simp only [advance, Call.run, FS.rename]
      rcases fs q with _ | (_ | _) <;> rcases fs r with _ | (_ | (_ | ⟨_, _⟩)) <;>
        first
        | rfl
        | (simp only []; rw [set_ne _ _ _ _ h1, set_ne _ _ _ _ h2])

theorem advance_sub (fs : FS) (l : List Call) : ∀ c ∈ (advance fs l).2, c ∈ l := by
  cases l with
  | nil => simp [advance]
  | cons c cs =>
    rw [advance]
    intro d hd
    cases hc : c.run fs with
    | ok f => rw [hc] at hd; exact List.mem_cons_of_mem _ hd
    | error e => rw [hc] at hd; simp at hd

theorem calls_within (j : Job) (hbody : ∀ c ∈ j.body, c.1 = tmpOf j.name) : ∀ c ∈ j.calls, Within (Uses j.name) c := by
  intro c hc
  simp only [Job.calls, List.cons_append, List.mem_cons, List.mem_append, List.mem_map] at hc
  rcases hc with rfl | ⟨d, hd, rfl⟩ | hc
  · exact .inr (.inr rfl)
  · exact .inr (.inl (hbody d hd))
  · cases he : j.exc with
    | none =>
      simp only [he, List.mem_cons, List.not_mem_nil, or_false] at hc
      rcases hc with rfl | rfl
      · exact ⟨.inr (.inl rfl), .inl rfl⟩
      · exact .inr (.inr rfl)
    | some e =>
      simp only [he, List.mem_append, List.mem_singleton] at hc
      rcases hc with hc | rfl
      · cases hp : j.preserve with
        | true => simp [hp] at hc
        | false =>
          have : c = .remove (tmpOf j.name) := by simpa [hp] using hc
          subst this
          exact .inr (.inl rfl)
      · exact .inr (.inr rfl)

variable {ι : Type} [DecidableEq ι]

/-- Each process goes through the states of its block alone, as far as its paths are concerned. -/
theorem run_alone (fs : FS) (jobs : ι → Job) (hbody : ∀ i, ∀ c ∈ (jobs i).body, c.1 = tmpOf (jobs i).name)
    (hdis : ∀ i j, i ≠ j → ∀ p, Uses (jobs i).name p → ¬ Uses (jobs j).name p) (order : List ι) :
    (∀ i, ((Many.start fs jobs).run order).todo i = (alone fs (jobs i).calls (order.count i)).2 ∧
      Agree (Uses (jobs i).name) ((Many.start fs jobs).run order).fs (alone fs (jobs i).calls (order.count i)).1) ∧
    (∀ p, (∀ i, ¬ Uses (jobs i).name p) → ((Many.start fs jobs).run order).fs p = fs p) ∧
    ∀ i, ∀ c ∈ ((Many.start fs jobs).run order).todo i, Within (Uses (jobs i).name) c := by
  induction order using List.reverseRecOn with
  | nil => exact ⟨fun i => ⟨rfl, fun _ _ => rfl⟩, fun _ _ => rfl, fun i => calls_within _ (hbody i)⟩
  | append_singleton order k ih =>
    have hrun : (Many.start fs jobs).run (order ++ [k]) = ((Many.start fs jobs).run order).step k := by
      simp [Many.run]
    rw [hrun]
    generalize (Many.start fs jobs).run order = M at ih
    obtain ⟨h1, h2, h3⟩ := ih
    refine ⟨?_, ?_, ?_⟩
    · intro i
      obtain ⟨ht, ha⟩ := h1 i
      rw [List.count_append]
      by_cases hik : i = k
      · subst hik
        rw [List.count_singleton_self, alone, ← ht]
        obtain ⟨a1, a2⟩ := advance_agree _ _ _ ha (M.todo i) (h3 i)
        refine ⟨?_, a1⟩
        show (if i = i then _ else _) = _
        rw [if_pos rfl, a2]
      · have : List.count i [k] = 0 := List.count_eq_zero_of_not_mem (by simpa using hik)
        rw [this, Nat.add_zero]
        refine ⟨?_, ?_⟩
        · show (if i = k then _ else _) = _
          rw [if_neg hik]; exact ht
        · intro p hp
          show (advance M.fs (M.todo k)).1 p = _
          rw [advance_other _ _ _ (h3 k) p (hdis i k hik p hp)]
          exact ha p hp
    · intro p hp
      show (advance M.fs (M.todo k)).1 p = _
      rw [advance_other _ _ _ (h3 k) p (hp k)]
      exact h2 p hp
    · intro i c hc
      have hc' : c ∈ (if i = k then (advance M.fs (M.todo k)).2 else M.todo i) := hc
      by_cases hik : i = k
      · subst hik
        rw [if_pos rfl] at hc'
        exact h3 i c (advance_sub _ _ c hc')
      · rw [if_neg hik] at hc'
        exact h3 i c hc'

end Verif.Lock
