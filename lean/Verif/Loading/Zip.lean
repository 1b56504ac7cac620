import Verif.Save.Model
import Verif.Tasks.Zip
import Mathlib.Tactic.Common

/-!
# C88: containers saved as zip files by background jobs

Models `caput/pipeline/tasklib/io.py:954-1062`: `SaveZarrZip.next`, the job it starts, and `WaitZarrZip`.

A directory or zip file is its members with their contents. Saving to a directory replaces what was there. The command `7z a` adds members to an archive, also if it is there before. A job runs at some time after it was started, and
is modelled as one step: zipping, and then, if that succeeded, removing the directory.
-/
namespace Verif.Loading

open Verif.Save (Str Env Cont)
open Verif.Tasks (hostRank uniqueHosts)

variable {β : Type}

abbrev Members (β : Type) := Str → Option β

/-- What there is on disk, and how each job ended. -/
structure Disk (β : Type) where
  dirs : Str → Option (Members β)
  zips : Str → Option (Members β)
  codes : Nat → Option Bool

/-- What happens: container `k` is saved; job `k` runs, and `7z` succeeds or not. -/
inductive ZEv where
  | save (k : Nat)
  | job (k : Nat) (ok : Bool)
  deriving DecidableEq

def ZEv.about : ZEv → Nat
  | .save k => k
  | .job k _ => k

/-- Adding members to an archive. -/
def addTo (old : Option (Members β)) (new : Members β) : Members β := fun m =>
  match new m with
  | some x => some x
  | none =>
    match old with
    | none => none
    | some o => o m

def upd {α : Type} (f : Str → Option α) (n : Str) (v : Option α) : Str → Option α := fun m => if m = n then v else f m

/-- io.py:998-1021: one step. -/
def zstep (name : Nat → Str) (content : Nat → Members β) (remove : Bool) (s : Disk β) : ZEv → Disk β
  | .save k => { s with dirs := upd s.dirs (name k) (some (content k)) }
  | .job k ok =>
    match s.dirs (name k) with
    | none => { s with codes := fun j => if j = k then some false else s.codes j }
    | some d =>
      if ok then
      { dirs := if remove then upd s.dirs (name k) none else s.dirs, zips := upd s.zips (name k) (some (addTo (s.zips (name k)) d)),
        codes := fun j => if j = k then some true else s.codes j }
      else { s with codes := fun j => if j = k then some false else s.codes j }

def zrun (name : Nat → Str) (content : Nat → Members β) (remove : Bool) (s : Disk β) (h : List ZEv) : Disk β := h.foldl (zstep name content remove) s

/-- io.py:1004-1006: the process that starts job `k`; the hosts of the processes are given. -/
def starts (hosts : List Nat) (k r : Nat) : Bool := hostRank hosts r == some (k % (uniqueHosts hosts).length)

/-- How waiting ends for a process. -/
inductive Outcome where
  | done
  | raised (k : Nat)
  | blocked (k : Nat)
  | typeError
  deriving DecidableEq, Repr

/-- io.py:1049-1062: the loop over handles. A process goes on after the barrier only if all come to it. -/
def waitLoop (hosts : List Nat) (good : Nat → Bool) (r : Nat) : List Nat → Outcome
  | [] => .done
  | k :: ks =>
    if (List.range hosts.length).any fun r' => starts hosts k r' && !good k then (if starts hosts k r then .raised k else .blocked k)
    else waitLoop hosts good r ks

/-- io.py:1032-1062: `_handles` is `None` until the first handle comes. -/
def waitZip (hosts : List Nat) (good : Nat → Bool) (r : Nat) (handles : List Nat) : Outcome :=
  if handles = [] then .typeError else waitLoop hosts good r handles

/-- io.py:1055: the job ended with code 0 and the zip file exists. -/
def goodJob (name : Nat → Str) (s : Disk β) (k : Nat) : Bool := s.codes k == some true && (s.zips (name k)).isSome

/-! ### Jobs -/

theorem zstep_other (name : Nat → Str) (content : Nat → Members β) (remove : Bool) (s : Disk β) (e : ZEv) (k : Nat) (hne : name e.about ≠ name k) :
    (zstep name content remove s e).dirs (name k) = s.dirs (name k) ∧ (zstep name content remove s e).zips (name k) = s.zips (name k) ∧ (zstep name content remove s e).codes k = s.codes k := by
  have hk : k ≠ e.about := fun h => hne (by rw [h])
  cases e with
  | save j =>
    simp only [ZEv.about] at hne
    exact ⟨by simp [zstep, upd, Ne.symm hne], rfl, rfl⟩
  | job j ok =>
    simp only [ZEv.about] at hne hk
    simp only [zstep]
    cases s.dirs (name j) with
    | none => exact ⟨rfl, rfl, by simp [hk]⟩
    | some d =>
      cases ok with
      | false => exact ⟨rfl, rfl, by simp [hk]⟩
      | true =>
        refine ⟨?_, by simp [upd, Ne.symm hne], by simp [hk]⟩
        cases remove
        · rfl
        · simp [upd, Ne.symm hne]

/-- Two disks agree on container `k`. -/
def Agree (name : Nat → Str) (k : Nat) (s t : Disk β) : Prop := s.dirs (name k) = t.dirs (name k) ∧ s.zips (name k) = t.zips (name k) ∧ s.codes k = t.codes k

theorem zstep_agree (name : Nat → Str) (content : Nat → Members β) (remove : Bool) (s t : Disk β) (e : ZEv) (k : Nat) (he : e.about = k) (h : Agree name k s t) :
    Agree name k (zstep name content remove s e) (zstep name content remove t e) := by
  obtain ⟨h1, h2, h3⟩ := h
  cases e with
  | save j =>
    cases he
    exact ⟨by simp [zstep, upd, ZEv.about], h2, h3⟩
  | job j ok =>
    cases he
    simp only [ZEv.about] at h1 h2 h3 ⊢
    unfold Agree
    simp only [zstep, h1]
    cases t.dirs (name j) with
    | none => exact ⟨h1, h2, by simp⟩
    | some d =>
      cases ok with
      | false => exact ⟨h1, h2, by simp⟩
      | true =>
        refine ⟨?_, by simp [upd, h2], by simp⟩
        cases remove
        · exact h1
        · simp [upd]

theorem zrun_filter (name : Nat → Str) (content : Nat → Members β) (remove : Bool) (k : Nat) (h : List ZEv) (s t : Disk β) (hinj : ∀ e ∈ h, name e.about = name k → e.about = k) (hst : Agree name k s t) :
    Agree name k (zrun name content remove s h) (zrun name content remove t (h.filter fun e => e.about = k)) := by
  induction h generalizing s t with
  | nil => exact hst
  | cons e h ih =>
    have hinj' : ∀ e ∈ h, name e.about = name k → e.about = k := fun e he => hinj e (List.mem_cons_of_mem _ he)
    by_cases he : e.about = k
    · rw [List.filter_cons_of_pos (by simpa using he)]
      exact ih _ _ hinj' (zstep_agree name content remove s t e k he hst)
    · rw [List.filter_cons_of_neg (by simpa using he)]
      obtain ⟨a, b, c⟩ := zstep_other name content remove s e k fun hn => he (hinj e List.mem_cons_self hn)
      exact ih _ _ hinj' ⟨a.trans hst.1, b.trans hst.2.1, c.trans hst.2.2⟩

/-- **C88** (partial) Whatever the order in which jobs end between the saves: if the names are different and there was no zip file with the name before, then the container is in the zip file when its job has succeeded, with just
its members; and the directory is gone if this was asked for, and else is there.

Missing: see `C88_stale_violated`, `C88_count_violated`. -/
theorem C88_zip_partial (name : Nat → Str) (content : Nat → Members β) (remove : Bool) (s : Disk β) (h : List ZEv) (k : Nat) (hinj : ∀ e ∈ h, name e.about = name k → e.about = k)
    (hk : h.filter (fun e => e.about = k) = [.save k, .job k true]) (h0 : s.zips (name k) = none) :
    (zrun name content remove s h).zips (name k) = some (content k) ∧ (zrun name content remove s h).dirs (name k) = (if remove then none else some (content k)) ∧
    goodJob name (zrun name content remove s h) k = true := by
  obtain ⟨h1, h2, h3⟩ := zrun_filter name content remove k h s s hinj ⟨rfl, rfl, rfl⟩
  rw [hk] at h1 h2 h3
  have hz : addTo (none : Option (Members β)) (content k) = content k := by
    funext m
    unfold addTo
    cases content k m <;> rfl
  have e2 : (zrun name content remove s h).zips (name k) = some (content k) := by
    rw [h2]
    simp [zrun, zstep, upd, h0, hz]
  refine ⟨e2, ?_, ?_⟩
  · rw [h1]
    cases remove <;> simp [zrun, zstep, upd]
  · unfold goodJob
    rw [e2, h3]
    simp [zrun, zstep, upd]

/-- **C88** If zipping failed, the directory is still there with the container, also if it should have been removed. -/
theorem C88_failed (name : Nat → Str) (content : Nat → Members β) (remove : Bool) (s : Disk β) (h : List ZEv) (k : Nat) (hinj : ∀ e ∈ h, name e.about = name k → e.about = k)
    (hk : h.filter (fun e => e.about = k) = [.save k, .job k false]) :
    (zrun name content remove s h).dirs (name k) = some (content k) ∧ (zrun name content remove s h).zips (name k) = s.zips (name k) ∧ goodJob name (zrun name content remove s h) k = false := by
  obtain ⟨h1, h2, h3⟩ := zrun_filter name content remove k h s s hinj ⟨rfl, rfl, rfl⟩
  rw [hk] at h1 h2 h3
  refine ⟨?_, ?_, ?_⟩
  · rw [h1]
    simp [zrun, zstep, upd]
  · rw [h2]
    simp [zrun, zstep, upd]
  · unfold goodJob
    rw [h3]
    simp [zrun, zstep, upd]

example : (ZEv.save 0 :: .save 1 :: .job 1 true :: .save 2 :: .job 0 true :: [.job 2 false]).filter (fun e => e.about = 1) = [.save 1, .job 1 true] := by decide

/-- **C88** (violated) If a zip file with the name is there from before, its old members stay in it. -/
theorem C88_stale_violated (name : Nat → Str) (content : Nat → Members β) (remove : Bool) (s : Disk β) (k : Nat) (old : Members β) (h0 : s.zips (name k) = some old) (m : Str) (hm : content k m = none) (x : β)
    (hx : old m = some x) : ∃ z, (zrun name content remove s [.save k, .job k true]).zips (name k) = some z ∧ z m = some x := by
  refine ⟨addTo (some old) (content k), ?_, ?_⟩
  · simp [zrun, zstep, upd, h0]
  · simp [addTo, hm, hx]

/-- The names of two containers that have the same attributes are the same, since the task does not count: also if the number is part of the name. -/
theorem saveOutput_same {δ : Type} (E : Env) (c : Save.Cfg) (x y : Cont δ) (h : x.attrs = y.attrs) (f g : Str) (hf : Save.saveOutput E c 0 0 x = .ok [.save f x]) (hg : Save.saveOutput E c 0 0 y = .ok [.save g y]) : f = g := by
  unfold Save.saveOutput at hf hg
  rw [h] at hf
  cases h1 : c.save.at 0 with
  | error e => rw [h1] at hf; cases hf
  | ok b =>
    cases b with
    | false => rw [h1] at hf; cases hf
    | true =>
      rw [h1] at hf hg
      simp only at hf hg
      cases h2 : Save.interp c 0 y.attrs 0 with
      | error e => rw [h2] at hf; cases hf
      | ok d =>
        rw [h2] at hf hg
        simp only at hf hg
        cases h3 : c.outputName.at 0 with
        | error e => rw [h3] at hf; cases hf
        | ok n =>
          rw [h3] at hf hg
          simp only at hf hg
          cases h4 : Save.format E (if c.outputRoot ≠ [] then d.put "output_root".toList (.str c.outputRoot) else d) n with
          | error e => rw [h4] at hf; cases hf
          | ok t =>
            rw [h4] at hf hg
            simp only [Except.ok.injEq, List.cons.injEq, Save.Ev.save.injEq, and_true] at hf hg
            rw [← hf, ← hg]

/-- **C88** (violated) Two containers without a tag are saved with the same name, whatever the parameters are, and then only members of the second are sure to be in the zip file: a member of the first is lost if the second has
one of this name. -/
theorem C88_count_violated {δ : Type} (E : Env) (c : Save.Cfg) (x y : Cont δ) (h : x.attrs = y.attrs) (f g : Str) (hf : Save.saveOutput E c 0 0 x = .ok [.save f x])
    (hg : Save.saveOutput E c 0 0 y = .ok [.save g y]) (content : Nat → Members β) (remove : Bool) (s : Disk β) (m : Str) (a : β) (hm : content 1 m = some a) :
    ∃ z, (zrun (fun k => if k = 0 then f else g) content remove s [.save 0, .job 0 true, .save 1, .job 1 true]).zips f = some z ∧ z m = some a := by
  have := saveOutput_same E c x y h f g hf hg
  subst this
  refine ⟨addTo (some (addTo (s.zips f) (content 0))) (content 1), ?_, ?_⟩
  · cases remove <;> simp [zrun, zstep, upd]
  · simp [addTo, hm]

/-! ### Processes -/

/-- **C88** Every job is started by exactly one process. -/
theorem C88_starts (hosts : List Nat) (hne : hosts ≠ []) (k : Nat) : ∃ r < hosts.length, starts hosts k r = true ∧ ∀ r', starts hosts k r' = true → r' = r := by
  obtain ⟨h1, h2⟩ := Tasks.uniqueHosts_inv hosts
  have hp := Tasks.isort_perm ((uniqueHosts hosts).map (·.1))
  have hlen : (Tasks.isort ((uniqueHosts hosts).map (·.1))).length = (uniqueHosts hosts).length := by
    rw [hp.length_eq]; simp
  have h0 : 0 < (uniqueHosts hosts).length := by
    obtain ⟨h, hm⟩ := List.exists_mem_of_ne_nil _ hne
    obtain ⟨r, hr⟩ := Tasks.firstOn_exists hm
    exact List.length_pos_of_mem ((h2 h r).2 hr)
  have hk : k % (uniqueHosts hosts).length < (Tasks.isort ((uniqueHosts hosts).map (·.1))).length := by
    rw [hlen]; exact Nat.mod_lt _ h0
  have hhm := hp.mem_iff.1 (List.getElem_mem hk)
  obtain ⟨⟨h, r⟩, hhr, hhe⟩ := List.mem_map.1 hhm
  have hfirst := (h2 h r).1 hhr
  refine ⟨r, (List.getElem?_eq_some_iff.1 hfirst.1).1, ?_, ?_⟩
  · unfold starts
    rw [beq_iff_eq, Tasks.hostRank_iff]
    exact ⟨h, hfirst, by rw [List.getElem?_eq_getElem hk]; exact congrArg some hhe.symm⟩
  · intro r' hr'
    unfold starts at hr'
    rw [beq_iff_eq, Tasks.hostRank_iff] at hr'
    obtain ⟨h', hf', hg'⟩ := hr'
    rw [List.getElem?_eq_getElem hk] at hg'
    have hhh : h' = h := by
      rw [← Option.some.inj hg']
      exact hhe.symm
    subst hhh
    exact Tasks.firstOn_unique hf' hfirst

theorem any_starts (hosts : List Nat) (hne : hosts ≠ []) (good : Nat → Bool) (k : Nat) : ((List.range hosts.length).any fun r' => starts hosts k r' && !good k) = !good k := by
  obtain ⟨r, hr, hs, _⟩ := C88_starts hosts hne k
  cases hg : good k with
  | true => simp
  | false =>
    simp only [Bool.not_false, Bool.and_true, List.any_eq_true]
    exact ⟨r, List.mem_range.2 hr, hs⟩

theorem waitLoop_split (hosts : List Nat) (hne : hosts ≠ []) (good : Nat → Bool) (r : Nat) (a : List Nat) (k : Nat) (b : List Nat) (ha : ∀ j ∈ a, good j = true) (hk : good k = false) :
    waitLoop hosts good r (a ++ k :: b) = if starts hosts k r then .raised k else .blocked k := by
  induction a with
  | nil =>
    rw [List.nil_append, waitLoop, any_starts hosts hne, hk]
    rfl
  | cons j a ih =>
    rw [List.cons_append, waitLoop, any_starts hosts hne, ha j List.mem_cons_self]
    exact ih fun i hi => ha i (List.mem_cons_of_mem _ hi)

/-- **C88** (partial) Waiting ends without an error on a process exactly if all jobs succeeded, of whatever process; if not, the process that started the first job that failed raises an error.

Missing: see `C88_wait_violated`, `C88_empty_violated`. -/
theorem C88_wait_partial (hosts : List Nat) (hne : hosts ≠ []) (good : Nat → Bool) (handles : List Nat) (h0 : handles ≠ []) :
    (∀ r, waitZip hosts good r handles = .done ↔ ∀ k ∈ handles, good k = true) ∧
    ∀ a k b, handles = a ++ k :: b → (∀ j ∈ a, good j = true) → good k = false → ∃ r < hosts.length, starts hosts k r = true ∧ waitZip hosts good r handles = .raised k := by
  constructor
  · intro r
    unfold waitZip
    rw [if_neg h0]
    clear h0
    induction handles with
    | nil => simp [waitLoop]
    | cons k ks ih =>
      rw [waitLoop, any_starts hosts hne]
      cases hg : good k with
      | true => simpa [hg] using ih
      | false =>
        cases starts hosts k r <;> simp [hg]
  · rintro a k b rfl ha hk
    obtain ⟨r, hr, hs, _⟩ := C88_starts hosts hne k
    refine ⟨r, hr, hs, ?_⟩
    unfold waitZip
    rw [if_neg h0, waitLoop_split hosts hne good r a k b ha hk, if_pos hs]

/-- **C88** (violated) Only one process raises the error: all others wait for it without end. -/
theorem C88_wait_violated (hosts : List Nat) (hne : hosts ≠ []) (good : Nat → Bool) (a : List Nat) (k : Nat) (b : List Nat) (ha : ∀ j ∈ a, good j = true) (hk : good k = false) :
    ∃ r, ∀ r', r' ≠ r → waitZip hosts good r' (a ++ k :: b) = .blocked k := by
  obtain ⟨r, _, _, hu⟩ := C88_starts hosts hne k
  refine ⟨r, fun r' hr' => ?_⟩
  have : starts hosts k r' ≠ true := fun h => hr' (hu r' h)
  unfold waitZip
  rw [if_neg (by simp), waitLoop_split hosts hne good r' a k b ha hk, if_neg this]

/-- **C88** (violated) If nothing was saved, waiting is a `TypeError`. -/
theorem C88_empty_violated (hosts : List Nat) (good : Nat → Bool) (r : Nat) : waitZip hosts good r [] = .typeError := rfl

example : (List.range 6).map (fun r => waitZip Tasks.exHosts (fun k => k != 4) r [3, 4, 5]) = [.blocked 4, .blocked 4, .blocked 4, .raised 4, .blocked 4, .blocked 4] := by decide +kernel

end Verif.Loading
