import Verif.Dirs.Lemmas

/-!
# C108: the directory of an output is made, whoever else makes it

A run is a list of moves, in any order: `.proc i` is the next access of process `i` to the file system, `.other q` another program that makes the
directory `q`. `turns i ms` counts the moves of process `i`.
-/
namespace Verif.Dirs

/-! ## Specification -/

/-- The path begins at a directory, and no file is in its way. -/
def Open (fs : FS) (p : Proc) : Prop := fs p.base = some .dir ∧ ∀ pre, pre <+: p.comps → fs (p.base ++ pre) ≠ some .file

/-- The file name has no directory, as in `out.h5`. -/
def Plain (p : Proc) : Prop := p.relative = true ∧ p.comps = []

/-- The directory the output goes to. -/
def Target (p : Proc) : Path := p.base ++ p.comps

private theorem open_free {fs : FS} {p : Proc} (h : Open fs p) : Free p fs :=
  ⟨h.1, fun k _ => h.2 _ (List.take_prefix k p.comps)⟩

private theorem bare_iff (p : Proc) : p.bare = true ↔ Plain p := by
  unfold Proc.bare Plain
  rw [Bool.and_eq_true, List.isEmpty_iff]

private theorem bare_false {p : Proc} (h : ¬ Plain p) : p.bare = false := by
  rw [← bare_iff] at h; simpa using h

private theorem start_pc {ps : List Proc} {fs : FS} {i : Nat} {p : Proc} (h : ps[i]? = some p) :
    (World.start ps fs).pcs[i]? = some .start := by
  simp [World.start, h]

private theorem target (p : Proc) : p.path p.len = Target p := path_len p

/-! ## Properties -/

/-- Any number of processes, any interleaving, other programs that make directories: a process that writes a group or a container never fails, its directory is there when
it is through, and it is through after `2 n + 4` accesses for a path of `n` names. (A group needs a name with a directory.) -/
theorem C108_together_partial (ps : List Proc) (fs : FS) (ms : List Move) (i : Nat) (p : Proc) (hi : ps[i]? = some p) (ho : Open fs p)
    (hc : p.caller = .container ∨ p.caller = .group ∧ ¬ Plain p) :
    (∀ e, ((World.start ps fs).run ps ms).pcs[i]? ≠ some (.failed e)) ∧
    (((World.start ps fs).run ps ms).pcs[i]? = some .done → ((World.start ps fs).run ps ms).fs (Target p) = some .dir) ∧
    (2 * p.comps.length + 4 ≤ turns i ms → ((World.start ps fs).run ps ms).pcs[i]? = some .done) := by
  have hno : ∀ e, ((World.start ps fs).run ps ms).pcs[i]? ≠ some (.failed e) := by
    intro e he
    by_cases hp : Plain p
    · have hc : p.caller = .container := by
        rcases hc with hc | hc
        · exact hc
        · exact absurd hp hc.2
      obtain ⟨pc', a, b⟩ := run_bare ps i p hi hc ((bare_iff p).2 hp) ms (World.start ps fs) _ (start_pc hi) (.inl rfl)
      rw [a] at he
      injection he with he
      subst he
      rcases b with b | b <;> cases b
    · obtain ⟨pc', a, b⟩ := run_inv ps i p hi (bare_false hp) ms (World.start ps fs) _ (start_pc hi) (open_free ho) trivial
      rw [a] at he
      injection he with he
      subst he
      have := b.1
      rcases hc with hc | ⟨hc, -⟩ <;> rw [hc] at this <;> cases this
  refine ⟨hno, ?_, ?_⟩
  · intro hd
    by_cases hp : Plain p
    · have : Target p = p.base := by unfold Target; rw [hp.2, List.append_nil]
      rw [this]
      exact (run_grows ps ms (World.start ps fs)).1 _ _ ho.1
    · obtain ⟨pc', a, b⟩ := run_inv ps i p hi (bare_false hp) ms (World.start ps fs) _ (start_pc hi) (open_free ho) trivial
      rw [a] at hd
      injection hd with hd
      subst hd
      rw [← target]
      exact b
  · intro ht
    obtain ⟨pc', a, b, c⟩ := run_left ps i p hi ms (World.start ps fs) _ (start_pc hi) trivial
    have h0 : left p pc' = 0 := by
      have hs : left p .start = 2 * p.comps.length + 4 := rfl
      omega
    rcases left_zero b h0 with rfl | ⟨e, rfl⟩
    · exact a
    · exact absurd a (hno e)

/-- Two processes that write to `a/b/` below the current directory `w`. -/
def two : List Proc := [⟨.group, true, ["w"], ["a", "b"]⟩, ⟨.container, true, ["w"], ["a", "b"]⟩]

def work : FS := fun q => if q = ["w"] then some .dir else none

/-- Two processes and a third program, step by step in turn: both are through. -/
example : ((World.start two work).run two
    [.proc 0, .proc 1, .proc 0, .proc 1, .proc 0, .proc 1, .other ["w", "a"], .proc 0, .proc 1, .proc 0, .proc 1, .proc 1]).pcs = [.done, .done] := by
  decide

example : Open work ⟨.group, true, ["w"], ["a", "b"]⟩ := by
  refine ⟨rfl, fun pre _ h => ?_⟩
  unfold work at h
  split at h <;> cases h

/-- Directories are only added, never removed or replaced, and only on the paths of the processes. -/
theorem C108_only (ps : List Proc) (fs : FS) (ms : List Move) (q : Path) :
    (∀ k, fs q = some k → ((World.start ps fs).run ps ms).fs q = some k) ∧
    (((World.start ps fs).run ps ms).fs q ≠ fs q →
      ((World.start ps fs).run ps ms).fs q = some .dir ∧
      ((∃ p ∈ ps, p.base <+: q ∧ q <+: Target p) ∨ Move.other q ∈ ms)) := by
  have hg := run_grows ps ms (World.start ps fs)
  refine ⟨hg.1 q, fun h => ⟨?_, ?_⟩⟩
  · generalize hx : ((World.start ps fs).run ps ms).fs q = x at *
    cases x with
    | none =>
      cases hq : fs q with
      | none => exact absurd hq.symm h
      | some k =>
        have := hg.1 q k hq
        rw [hx] at this
        cases this
    | some k =>
      cases k with
      | dir => rfl
      | file => exact absurd (hg.2 q hx).symm h
  · rcases run_only ps ms (World.start ps fs) q h with ⟨p, hp, k, rfl⟩ | h
    · refine .inl ⟨p, hp, List.prefix_append _ _, ?_⟩
      unfold Proc.path Target
      exact (List.prefix_append_right_inj _).2 (List.take_prefix _ _)
    · exact .inr h

example : ((World.start two work).run two (List.replicate 8 (.proc 0))).fs ["w", "a"] = some .dir ∧
    ((World.start two work).run two (List.replicate 8 (.proc 0))).fs ["w", "c"] = none := by
  decide

/-- A process that is alone never fails, whichever of the three it is, if its file name has a directory. -/
theorem C108_alone_partial (fs : FS) (p : Proc) (ho : Open fs p) (hp : ¬ Plain p) (n : Nat) (hn : 2 * p.comps.length + 4 ≤ n) :
    ((World.start [p] fs).run [p] (List.replicate n (.proc 0))).pcs = [.done] ∧
    ((World.start [p] fs).run [p] (List.replicate n (.proc 0))).fs (Target p) = some .dir := by
  obtain ⟨pc', a, b⟩ := alone_run p (bare_false hp) n fs .start (open_free ho) trivial
  obtain ⟨pc2, a2, b2, c2⟩ := run_left [p] 0 p rfl (List.replicate n (.proc 0)) (World.start [p] fs) .start rfl trivial
  have ht : turns 0 (List.replicate n (.proc 0)) = n := by
    clear a b a2 c2 hn
    induction n with
    | zero => rfl
    | succ n ih => rw [List.replicate_succ]; simp only [turns, if_true]; rw [ih]; omega
  have h0 : left p pc2 = 0 := by
    rw [ht] at c2
    have hs : left p .start = 2 * p.comps.length + 4 := rfl
    omega
  have he : (World.start [p] fs) = ⟨fs, [.start]⟩ := rfl
  rw [he] at a2 ⊢
  rw [a] at a2
  have : pc' = pc2 := by simpa using a2
  subst this
  rcases left_zero b2 h0 with rfl | ⟨e, rfl⟩
  · refine ⟨a, ?_⟩
    rw [← target]
    exact b
  · exact absurd b id

example : ((World.start [⟨.task, true, ["w"], ["a", "b"]⟩] work).run [⟨.task, true, ["w"], ["a", "b"]⟩] (List.replicate 8 (.proc 0))).pcs = [.done] := by
  decide

/-- In company the only way to fail is the one of `read_process_write`: a "file exists" error although, or because, the directory is there. -/
theorem C108_task_partial (ps : List Proc) (fs : FS) (ms : List Move) (i : Nat) (p : Proc) (hi : ps[i]? = some p) (ho : Open fs p)
    (hp : ¬ Plain p) (e : Err) (he : ((World.start ps fs).run ps ms).pcs[i]? = some (.failed e)) :
    p.caller = .task ∧ e = .fileExists ∧ ((World.start ps fs).run ps ms).fs (Target p) = some .dir := by
  obtain ⟨pc', a, b⟩ := run_inv ps i p hi (bare_false hp) ms (World.start ps fs) _ (start_pc hi) (open_free ho) trivial
  rw [a] at he
  injection he with he
  subst he
  rw [← target]
  exact b

/-- The claim fails: two processes write with `read_process_write` to the same new directory; one of them fails. -/
theorem C108_race_violated : ∃ (ps : List Proc) (fs : FS) (ms : List Move) (p : Proc), ps = [p, p] ∧ Open fs p ∧ ¬ Plain p ∧
    ((World.start ps fs).run ps ms).pcs = [.done, .failed .fileExists] := by
  refine ⟨[⟨.task, true, ["w"], ["a"]⟩, ⟨.task, true, ["w"], ["a"]⟩], work,
    [.proc 0, .proc 1, .proc 0, .proc 1, .proc 0, .proc 1], ⟨.task, true, ["w"], ["a"]⟩, rfl, ⟨rfl, fun pre _ h => ?_⟩, ?_, by decide⟩
  · unfold work at h
    split at h <;> cases h
  · rintro ⟨-, h⟩
    cases h

/-- The claim fails: with a plain file name `read_process_write` and the output of groups fail, in every file system; only containers can be written. -/
theorem C108_plain_violated (p : Proc) (fs : FS) (hp : Plain p) (n : Nat) (hn : 4 ≤ n) :
    ((World.start [p] fs).run [p] (List.replicate n (.proc 0))).pcs =
      [if p.caller = .container then .done else .failed .notFound] := by
  have hb := (bare_iff p).2 hp
  have hl : p.len = 0 := by unfold Proc.len; rw [hp.2]; rfl
  obtain ⟨m, rfl⟩ : ∃ m, n = m + 4 := ⟨n - 4, by omega⟩
  have hstay : ∀ (m : Nat) (pc : PC), (pc = .done ∨ ∃ e, pc = .failed e) →
      ((⟨fs, [pc]⟩ : World).run [p] (List.replicate m (.proc 0))).pcs = [pc] := by
    intro m pc h
    induction m with
    | zero => rfl
    | succ m ih =>
      have : (⟨fs, [pc]⟩ : World).move [p] (.proc 0) = ⟨fs, [pc]⟩ := by
        rcases h with rfl | ⟨e, rfl⟩ <;> rfl
      rw [List.replicate_succ]
      show (((⟨fs, [pc]⟩ : World).move [p] (.proc 0)).run [p] _).pcs = _
      rw [this]
      exact ih
  have hsplit : ((World.start [p] fs).run [p] (List.replicate (m + 4) (.proc 0))) =
      ((World.start [p] fs).run [p] (List.replicate 4 (.proc 0))).run [p] (List.replicate m (.proc 0)) := by
    unfold World.run
    rw [← List.foldl_append, List.replicate_append_replicate, Nat.add_comm]
  have hfour : (World.start [p] fs).run [p] (List.replicate 4 (.proc 0)) =
      ⟨fs, [if p.caller = .container then .done else .failed .notFound]⟩ := by
    cases hc : p.caller <;>
      simp [World.run, World.start, World.move, Proc.step, Proc.raise, Proc.isdir, hb, hl, hc, List.replicate]
  rw [hsplit, hfour]
  apply hstay
  split
  · exact .inl rfl
  · exact .inr ⟨_, rfl⟩

example : Plain ⟨.group, true, ["w"], []⟩ := ⟨rfl, rfl⟩

end Verif.Dirs
