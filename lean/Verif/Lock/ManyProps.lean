import Verif.Lock.ManyLemmas
import Verif.Lock.Props

/-!
# C55 for any number of writers

`jobs` gives each of any number of processes a block; `order` is the order of their system calls, which may stop anywhere.
Each body writes only the temporary file it was given.
-/
namespace Verif.Lock
variable {ι : Type} [DecidableEq ι]

/-- **C55**: if no two blocks share a path, each behaves as if it were alone, whether the bodies fail or not: at any time
its paths are as in some state of the block alone, in the end they are as the block alone leaves them, and this comes
after at most three calls more than the body makes. Nothing else changes. -/
theorem C55_as_alone_partial (fs : FS) (jobs : ι → Job)
    (hbody : ∀ i, ∀ c ∈ (jobs i).body, c.1 = tmpOf (jobs i).name)
    (hdis : ∀ i j, i ≠ j → ∀ p, Uses (jobs i).name p → ¬ Uses (jobs j).name p) (order : List ι) :
    let M := (Many.start fs jobs).run order
    (∀ i, let j := jobs i
      let o := block fs j.name j.preserve j.body j.exc
      (∃ s ∈ o.states, ∀ p, Uses j.name p → M.fs p = s p) ∧
      (M.todo i = [] → ∀ p, Uses j.name p → M.fs p = o.final p) ∧
      (j.body.length + 3 ≤ order.count i → M.todo i = [])) ∧
    ∀ p, (∀ i, ¬ Uses (jobs i).name p) → M.fs p = fs p := by
  obtain ⟨h1, h2, _⟩ := run_alone fs jobs hbody hdis order
  refine ⟨?_, h2⟩
  intro i
  obtain ⟨ht, ha⟩ := h1 i
  obtain ⟨s1, s2⟩ := job_states fs (jobs i)
  refine ⟨⟨_, s1 _ (alone_states fs _ (order.count i)), ha⟩, ?_, ?_⟩
  · intro hd p hp
    rw [ha p hp]
    rw [ht] at hd
    rw [alone_final fs _ _ hd, s2]
    rfl
  · intro hk
    rw [ht]
    apply alone_done
    refine Nat.le_trans ?_ hk
    simp only [Job.calls, List.length_append, List.length_cons, List.length_map]
    cases (jobs i).exc with
    | none => simp
    | some e => cases (jobs i).preserve <;> simp

/-- **C55**, for the blocks whose bodies succeed: at any time a reader finds the file that was there before or the
complete new one; in the end the new one, and neither temporary nor lock file; whatever the others do. -/
theorem C55_published_partial (fs : FS) (jobs : ι → Job)
    (hbody : ∀ i, ∀ c ∈ (jobs i).body, c.1 = tmpOf (jobs i).name)
    (hdis : ∀ i j, i ≠ j → ∀ p, Uses (jobs i).name p → ¬ Uses (jobs j).name p) (order : List ι)
    (i : ι) (hexc : (jobs i).exc = none) (new : List Nat)
    (htmp : afterBody (enter fs (jobs i).name) (jobs i).body (tmpOf (jobs i).name) = some (.file new))
    (hdest : ∀ l, fs (jobs i).name ≠ some (.dir l)) :
    let M := (Many.start fs jobs).run order
    (M.fs (jobs i).name = fs (jobs i).name ∨ M.fs (jobs i).name = some (.file new)) ∧
    (M.todo i = [] → M.fs (jobs i).name = some (.file new) ∧ M.fs (tmpOf (jobs i).name) = none ∧
      M.fs (lockOf (jobs i).name) = none) := by
  have hn : ∀ c ∈ (jobs i).body, c.1 ≠ (jobs i).name ∧ c.1 ≠ lockOf (jobs i).name := by
    intro c hc
    rw [hbody i c hc]
    exact ⟨tmp_ne _, Ne.symm (lock_ne_tmp _)⟩
  obtain ⟨h, _⟩ := C55_as_alone_partial fs jobs hbody hdis order
  obtain ⟨⟨s, hs, hsp⟩, hf, _⟩ := h i
  rw [hexc] at hs hf
  constructor
  · rw [hsp _ (.inl rfl)]
    rcases C28_crash_atomic fs _ _ _ none (fun c hc => (hn c hc).1) s hs with h | ⟨_, n, h1, h2⟩
    · exact .inl h
    · right
      rw [htmp] at h1
      rw [h2, ← h1]
  · intro hd
    obtain ⟨_, e1, e2, e3, _⟩ := C29_success fs _ (jobs i).preserve _ hn new htmp hdest
    exact ⟨(hf hd _ (.inl rfl)).trans e1, (hf hd _ (.inr (.inl rfl))).trans e2, (hf hd _ (.inr (.inr rfl))).trans e3⟩

/-! Three processes, one of which fails. -/

def exJobs : Fin 3 → Job
  | 0 => ⟨⟨"d", "a"⟩, false, [(⟨"d", ".a"⟩, some (.file [])), (⟨"d", ".a"⟩, some (.file [1]))], none⟩
  | 1 => ⟨⟨"d", "b"⟩, false, [(⟨"d", ".b"⟩, some (.file [2]))], some (.user 0)⟩
  | 2 => ⟨⟨"e", "a"⟩, true, [(⟨"e", ".a"⟩, some (.file [3]))], none⟩

example : (∀ i, ∀ c ∈ (exJobs i).body, c.1 = tmpOf (exJobs i).name) ∧
    ∀ i j, i ≠ j → ∀ p ∈ [(exJobs i).name, tmpOf (exJobs i).name, lockOf (exJobs i).name],
      p ∉ [(exJobs j).name, tmpOf (exJobs j).name, lockOf (exJobs j).name] := by decide

example : let M := (Many.start (fun _ => none) exJobs).run [0, 1, 0, 2, 1, 1, 0, 0, 2, 1, 0, 2, 2]
    M.fs ⟨"d", "a"⟩ = some (.file [1]) ∧ M.fs ⟨"d", "b"⟩ = none ∧ M.fs ⟨"d", ".b"⟩ = none ∧
      M.fs ⟨"e", "a"⟩ = some (.file [3]) ∧ M.fs ⟨"d", ".a.lock"⟩ = none := by decide

end Verif.Lock
