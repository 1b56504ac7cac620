import Verif.Lock.Lemmas

/-!
# C28 (crash atomicity), C29 (clean up), C55 (two writers), C56 (several ranks)
-/
namespace Verif.Lock

/-! ## C28 -/

/-- **C28.** Whatever the body does to other files, whatever was in the directory, and whatever the
point at which the process dies (any state the block goes through): the file is what it was before,
or, if the body finished without an exception, the complete new file, that is the temporary file
as the body left it. -/
theorem C28_crash_atomic (fs : FS) (name : Path) (preserve : Bool) (body : List Change)
    (exc : Option Exc) (hbody : ∀ c ∈ body, c.1 ≠ name) :
    ∀ s ∈ (block fs name preserve body exc).states,
      s name = fs name ∨
      (exc = none ∧ ∃ n, afterBody (enter fs name) body (tmpOf name) = some n ∧ s name = some n) := by
  have henter : enter fs name name = fs name := set_ne _ _ _ _ (Ne.symm (lock_ne name))
  have hafter : afterBody (enter fs name) body name = fs name := by
    rw [afterBody_avoids _ _ _ hbody, henter]
  intro s hs
  simp only [block, Outcome.after, List.cons_append, List.mem_cons, List.mem_append] at hs
  rcases hs with rfl | rfl | hs | hs
  · exact .inl rfl
  · exact .inl henter
  · left
    rw [bodyStates_avoids _ _ _ hbody s hs, henter]
  · unfold leave at hs
    cases exc with
    | some e =>
      left
      simp only at hs
      split at hs
      · rw [(dropLock_dest _ _ _ name (Ne.symm (lock_ne name))).1 s hs, hafter]
      · split at hs
        · simp at hs
        · rename_i fs' hrem
          have h1 := remove_other _ _ _ _ hrem (Ne.symm (tmp_ne name))
          simp only [Outcome.after, List.cons_append, List.nil_append, List.mem_cons] at hs
          rcases hs with rfl | hs
          · rw [h1, hafter]
          · rw [(dropLock_dest _ _ _ name (Ne.symm (lock_ne name))).1 s hs, h1, hafter]
    | none =>
      right
      simp only at hs
      split at hs
      · simp at hs
      · rename_i fs' hren
        obtain ⟨n, hn, hq, _, _⟩ := rename_spec _ _ _ _ (Ne.symm (tmp_ne name)) hren
        refine ⟨rfl, n, hn, ?_⟩
        simp only [Outcome.after, List.cons_append, List.nil_append, List.mem_cons] at hs
        rcases hs with rfl | hs
        · exact hq
        · rw [(dropLock_dest _ _ _ name (Ne.symm (lock_ne name))).1 s hs, hq]

/-- **C28**, the new file does appear: a block that ends without an exception leaves the temporary
file, as the body left it, under the final name. -/
theorem C28_published (fs : FS) (name : Path) (preserve : Bool) (body : List Change)
    (h : (block fs name preserve body none).exc = none) :
    ∃ n, afterBody (enter fs name) body (tmpOf name) = some n ∧
      (block fs name preserve body none).final name = some n := by
  simp only [block, Outcome.after, leave] at h ⊢
  cases hr : (afterBody (enter fs name) body).rename (tmpOf name) name with
  | error e => rw [hr] at h; exact absurd h (by simp)
  | ok fs' =>
    obtain ⟨n, hn, hq, _, _⟩ := rename_spec _ _ _ _ (Ne.symm (tmp_ne name)) hr
    exact ⟨n, hn, by
      simp only
      rw [(dropLock_dest _ _ _ name (Ne.symm (lock_ne name))).2, hq]⟩

def exName : Path := ⟨"out", "map.h5"⟩
def exFS : FS := fun p => if p = exName then some (.file [7, 7]) else none
def exBody : List Change := [(tmpOf exName, some (.file [])), (tmpOf exName, some (.file [1])),
  (tmpOf exName, some (.file [1, 2]))]

example : (∀ c ∈ exBody, c.1 ≠ exName) ∧
    (block exFS exName false exBody none).states.map (· exName) =
      [some (.file [7, 7]), some (.file [7, 7]), some (.file [7, 7]), some (.file [7, 7]),
       some (.file [7, 7]), some (.file [1, 2]), some (.file [1, 2])] := by decide

/-! ## C29 -/

/-- **C29**, success: if the body left the temporary file and no directory is in the way, the block
raises nothing, the file has the new content, and the temporary file and the lock file are gone;
every other file is as the body left it. -/
theorem C29_success (fs : FS) (name : Path) (preserve : Bool) (body : List Change)
    (hbody : ∀ c ∈ body, c.1 ≠ name ∧ c.1 ≠ lockOf name) (new : List Nat)
    (htmp : afterBody (enter fs name) body (tmpOf name) = some (.file new))
    (hdest : ∀ l, fs name ≠ some (.dir l)) :
    let o := block fs name preserve body none
    o.exc = none ∧ o.final name = some (.file new) ∧ o.final (tmpOf name) = none ∧
      o.final (lockOf name) = none ∧
      ∀ p, p ≠ name → p ≠ tmpOf name → p ≠ lockOf name →
        o.final p = afterBody (enter fs name) body p := by
  have hdest' : ∀ l, afterBody (enter fs name) body name ≠ some (.dir l) := by
    intro l
    rw [afterBody_avoids _ _ _ (fun c hc => (hbody c hc).1),
      show enter fs name name = fs name from set_ne _ _ _ _ (Ne.symm (lock_ne name))]
    exact hdest l
  have hlock := lock_there fs name body (fun c hc => (hbody c hc).2)
  have hren : ∃ fs', (afterBody (enter fs name) body).rename (tmpOf name) name = .ok fs' ∧
      fs' = ((afterBody (enter fs name) body).set name (some (.file new))).set (tmpOf name) none := by
    unfold FS.rename
    rw [htmp]
    cases hd : afterBody (enter fs name) body name with
    | none => exact ⟨_, rfl, rfl⟩
    | some n =>
      cases n with
      | file c => exact ⟨_, rfl, rfl⟩
      | dir c => exact absurd hd (hdest' c)
  obtain ⟨fs', hren, hfs'⟩ := hren
  have hlock' : fs' (lockOf name) = some (.file []) := by
    rw [hfs', set_ne _ _ _ _ (lock_ne_tmp name), set_ne _ _ _ _ (lock_ne name), hlock]
  obtain ⟨h1, h2⟩ := dropLock_ok fs' name none [] hlock'
  simp only [block, Outcome.after, leave, hren, h1, h2]
  refine ⟨trivial, ?_, ?_, set_same _ _ _, ?_⟩
  · rw [set_ne _ _ _ _ (Ne.symm (lock_ne name)), hfs', set_ne _ _ _ _ (Ne.symm (tmp_ne name)),
      set_same]
  · rw [set_ne _ _ _ _ (Ne.symm (lock_ne_tmp name)), hfs', set_same]
  · intro p hp1 hp2 hp3
    rw [set_ne _ _ _ _ hp3, hfs', set_ne _ _ _ _ hp2, set_ne _ _ _ _ hp1]

example : (∀ c ∈ exBody, c.1 ≠ exName ∧ c.1 ≠ lockOf exName) ∧
    afterBody (enter exFS exName) exBody (tmpOf exName) = some (.file [1, 2]) := by decide

/-- **C29**, exception, `preserve` off, and the body had written the temporary file (as a file):
the lock and the temporary file are gone, nothing else changed, the exception propagates. -/
theorem C29_failure_partial (fs : FS) (name : Path) (body : List Change) (e : Exc)
    (hbody : ∀ c ∈ body, c.1 ≠ name ∧ c.1 ≠ lockOf name) (part : List Nat)
    (htmp : afterBody (enter fs name) body (tmpOf name) = some (.file part)) :
    let o := block fs name false body (some e)
    o.exc = some e ∧ o.final name = fs name ∧ o.final (tmpOf name) = none ∧
      o.final (lockOf name) = none ∧
      ∀ p, p ≠ tmpOf name → p ≠ lockOf name → o.final p = afterBody (enter fs name) body p := by
  have hlock := lock_there fs name body (fun c hc => (hbody c hc).2)
  have hrem : (afterBody (enter fs name) body).remove (tmpOf name)
      = .ok ((afterBody (enter fs name) body).set (tmpOf name) none) := by
    simp [FS.remove, htmp]
  obtain ⟨h1, h2⟩ := dropLock_ok ((afterBody (enter fs name) body).set (tmpOf name) none) name
    (some e) [] (by rw [set_ne _ _ _ _ (lock_ne_tmp name), hlock])
  simp only [block, Outcome.after, leave, hrem, h1, h2, Bool.false_eq_true, if_false]
  refine ⟨trivial, ?_, ?_, set_same _ _ _, ?_⟩
  · rw [set_ne _ _ _ _ (Ne.symm (lock_ne name)), set_ne _ _ _ _ (Ne.symm (tmp_ne name)),
      afterBody_avoids _ _ _ (fun c hc => (hbody c hc).1)]
    exact set_ne _ _ _ _ (Ne.symm (lock_ne name))
  · rw [set_ne _ _ _ _ (Ne.symm (lock_ne_tmp name)), set_same]
  · intro p hp1 hp2
    rw [set_ne _ _ _ _ hp2, set_ne _ _ _ _ hp1]

example : (block exFS exName false (exBody.take 2) (some (.user 3))).exc = some (.user 3) ∧
    afterBody (enter exFS exName) (exBody.take 2) (tmpOf exName) = some (.file [1]) := by decide

/-- **C29**, exception, `preserve` on: the lock is gone, the destination untouched, the temporary
file kept as it was, and the exception propagates. -/
theorem C29_failure_preserve (fs : FS) (name : Path) (body : List Change) (e : Exc)
    (hbody : ∀ c ∈ body, c.1 ≠ name ∧ c.1 ≠ lockOf name) :
    let o := block fs name true body (some e)
    o.exc = some e ∧ o.final name = fs name ∧ o.final (lockOf name) = none ∧
      ∀ p, p ≠ lockOf name → o.final p = afterBody (enter fs name) body p := by
  have hlock := lock_there fs name body (fun c hc => (hbody c hc).2)
  obtain ⟨h1, h2⟩ := dropLock_ok (afterBody (enter fs name) body) name (some e) [] hlock
  simp only [block, Outcome.after, leave, h1, h2, if_true]
  refine ⟨trivial, ?_, set_same _ _ _, fun p hp => set_ne _ _ _ _ hp⟩
  rw [set_ne _ _ _ _ (Ne.symm (lock_ne name)),
    afterBody_avoids _ _ _ (fun c hc => (hbody c hc).1)]
  exact set_ne _ _ _ _ (Ne.symm (lock_ne name))

example : (block exFS exName true (exBody.take 2) (some (.user 3))).final (tmpOf exName)
    = some (.file [1]) := by decide

/-- **C29 fails** if the body raises before it has created the temporary file: for every exception and
every directory, the exception that leaves the block is `FileNotFoundError`, and the lock file
stays. -/
theorem C29_early_exception_violated (fs : FS) (name : Path) (body : List Change) (e : Exc)
    (hbody : ∀ c ∈ body, c.1 ≠ lockOf name)
    (htmp : afterBody (enter fs name) body (tmpOf name) = none) :
    let o := block fs name false body (some e)
    o.exc = some .fileNotFound ∧ o.final (lockOf name) = some (.file []) := by
  have hrem : (afterBody (enter fs name) body).remove (tmpOf name) = .error .fileNotFound := by
    simp [FS.remove, htmp]
  simp only [block, Outcome.after, leave, hrem, Bool.false_eq_true, if_false]
  exact ⟨trivial, lock_there fs name body hbody⟩

example : afterBody (enter exFS exName) [] (tmpOf exName) = none := by decide

/-- **C29 fails** if the lock file is gone when the block is left, as when another block for the same name was left meanwhile: whether the body raised or not, a
`FileNotFoundError` leaves the block, although without an exception in the body the new file is in place. -/
theorem C29_lock_lost_violated (fs : FS) (name : Path) (preserve : Bool) (body : List Change) (hbody : ∀ c ∈ body, c.1 ≠ name) (new : List Nat)
    (htmp : afterBody (enter fs name) body (tmpOf name) = some (.file new)) (hdest : ∀ l, fs name ≠ some (.dir l))
    (hlock : afterBody (enter fs name) body (lockOf name) = none) :
    (∀ e, (block fs name preserve body (some e)).exc = some .fileNotFound) ∧
      (block fs name preserve body none).exc = some .fileNotFound ∧ (block fs name preserve body none).final name = some (.file new) := by
  have hd : afterBody (enter fs name) body name = fs name := by
    rw [afterBody_avoids _ _ _ hbody]
    exact set_ne _ _ _ _ (Ne.symm (lock_ne name))
  have hlt : lockOf name ≠ tmpOf name := lock_ne_tmp name
  have hrem : (afterBody (enter fs name) body).remove (tmpOf name) = .ok ((afterBody (enter fs name) body).set (tmpOf name) none) := by
    simp [FS.remove, htmp]
  have hren : (afterBody (enter fs name) body).rename (tmpOf name) name =
      .ok (((afterBody (enter fs name) body).set name (some (.file new))).set (tmpOf name) none) := by
    simp only [FS.rename, htmp, hd]
    split <;> simp_all
  have hr0 : (afterBody (enter fs name) body).remove (lockOf name) = .error .fileNotFound := by simp [FS.remove, hlock]
  have hr1 : ((afterBody (enter fs name) body).set (tmpOf name) none).remove (lockOf name) = .error .fileNotFound := by
    simp [FS.remove, FS.set, hlt, hlock]
  have hr2 : (((afterBody (enter fs name) body).set name (some (.file new))).set (tmpOf name) none).remove (lockOf name) = .error .fileNotFound := by
    simp [FS.remove, FS.set, hlt, hlock, lock_ne name]
  refine ⟨fun e => ?_, ?_, ?_⟩
  · cases preserve <;> simp [block, Outcome.after, leave, dropLock, hrem, hr0, hr1]
  · simp [block, Outcome.after, leave, dropLock, hren, hr2]
  · simp only [block, Outcome.after, leave, dropLock, hren, hr2]
    rw [set_ne _ _ _ _ (Ne.symm (tmp_ne name)), set_same]

example : afterBody (enter exFS exName) (exBody ++ [(lockOf exName, none)]) (lockOf exName) = none ∧
    (block exFS exName false (exBody ++ [(lockOf exName, none)]) none).exc = some .fileNotFound := by decide

/-- **C29 fails** for a `zarr` store, which is a directory: after an exception the temporary directory
and the lock stay and the exception is replaced. -/
theorem C29_directory_exception_violated (fs : FS) (name : Path) (body : List Change) (e : Exc)
    (hbody : ∀ c ∈ body, c.1 ≠ lockOf name) (part : List Nat)
    (htmp : afterBody (enter fs name) body (tmpOf name) = some (.dir part)) :
    let o := block fs name false body (some e)
    o.exc = some .isADirectory ∧ o.final (lockOf name) = some (.file []) ∧
      o.final (tmpOf name) = some (.dir part) := by
  have hrem : (afterBody (enter fs name) body).remove (tmpOf name) = .error .isADirectory := by
    simp [FS.remove, htmp]
  simp only [block, Outcome.after, leave, hrem, Bool.false_eq_true, if_false]
  exact ⟨trivial, lock_there fs name body hbody, htmp⟩

/-- **C29 fails** when a `zarr` store replaces an existing one: the rename fails, the old store stays,
and so do the temporary directory and the lock. -/
theorem C29_directory_replace_violated (fs : FS) (name : Path) (preserve : Bool)
    (body : List Change) (hbody : ∀ c ∈ body, c.1 ≠ name ∧ c.1 ≠ lockOf name) (new : List Nat)
    (htmp : afterBody (enter fs name) body (tmpOf name) = some (.dir new))
    (x : Nat) (old : List Nat) (hdest : fs name = some (.dir (x :: old))) :
    let o := block fs name preserve body none
    o.exc = some .notEmpty ∧ o.final name = fs name ∧ o.final (lockOf name) = some (.file []) ∧
      o.final (tmpOf name) = some (.dir new) := by
  have hd : afterBody (enter fs name) body name = some (.dir (x :: old)) := by
    rw [afterBody_avoids _ _ _ (fun c hc => (hbody c hc).1),
      show enter fs name name = fs name from set_ne _ _ _ _ (Ne.symm (lock_ne name)), hdest]
  have hren : (afterBody (enter fs name) body).rename (tmpOf name) name = .error .notEmpty := by
    simp [FS.rename, htmp, hd]
  simp only [block, Outcome.after, leave, hren]
  exact ⟨trivial, by rw [hd, hdest], lock_there fs name body (fun c hc => (hbody c hc).2), htmp⟩

example : ∃ (fs : FS) (body : List Change), (∀ c ∈ body, c.1 ≠ exName ∧ c.1 ≠ lockOf exName) ∧
    afterBody (enter fs exName) body (tmpOf exName) = some (.dir [1]) ∧
    fs exName = some (.dir [5]) :=
  ⟨fun p => if p = exName then some (.dir [5]) else none, [(tmpOf exName, some (.dir [1]))],
    by decide, by decide, by decide⟩

/-- **C29**, other ranks: they create and remove nothing themselves. -/
theorem C29_other_ranks (fs : FS) (name : Path) (body : List Change) (exc : Option Exc)
    (hbody : ∀ c ∈ body, c.1 = tmpOf name) :
    (blockOther fs body exc).exc = exc ∧
      ∀ s ∈ (blockOther fs body exc).states, ∀ p, p ≠ tmpOf name → s p = fs p := by
  refine ⟨rfl, ?_⟩
  intro s hs p hp
  rcases List.mem_cons.1 hs with rfl | hs
  · rfl
  · exact bodyStates_avoids _ _ _ (fun c hc => by rw [hbody c hc]; exact Ne.symm hp) s hs

example : ∀ c ∈ exBody, c.1 = tmpOf exName := by decide

/-! ## C56: one file written by several processes -/

/-- **C56**, if rank 0 is the last to finish: the changes of all ranks, in whatever order they happened,
come before rank 0 leaves its block; then the file is published with all of them, and never
partially. -/
theorem C56_rank0_last_partial (fs : FS) (name : Path) (preserve : Bool)
    (changes : List (Nat × Change)) (hbody : ∀ c ∈ changes, c.2.1 = tmpOf name) (new : List Nat)
    (hnew : afterBody fs (changes.map Prod.snd) (tmpOf name) = some (.file new))
    (hdest : ∀ l, fs name ≠ some (.dir l)) :
    let o := block fs name preserve (changes.map Prod.snd) none
    o.exc = none ∧ o.final name = some (.file new) ∧
      ∀ s ∈ o.states, s name = fs name ∨ s name = some (.file new) := by
  have hb : ∀ c ∈ changes.map Prod.snd, c.1 = tmpOf name := by
    intro c hc
    obtain ⟨x, hx, rfl⟩ := List.mem_map.1 hc
    exact hbody x hx
  have h1 : ∀ c ∈ changes.map Prod.snd, c.1 ≠ name :=
    fun c hc => by rw [hb c hc]; exact tmp_ne name
  have h2 : ∀ c ∈ changes.map Prod.snd, c.1 ≠ lockOf name :=
    fun c hc => by rw [hb c hc]; exact Ne.symm (lock_ne_tmp name)
  have htmp : afterBody (enter fs name) (changes.map Prod.snd) (tmpOf name) = some (.file new) := by
    rw [← hnew]
    exact afterBody_congr _ _ _ _ (set_ne _ _ _ _ (Ne.symm (lock_ne_tmp name)))
  obtain ⟨e1, e2, _⟩ := C29_success fs name preserve _ (fun c hc => ⟨h1 c hc, h2 c hc⟩) new htmp hdest
  refine ⟨e1, e2, ?_⟩
  intro s hs
  rcases C28_crash_atomic fs name preserve _ none h1 s hs with h | ⟨_, n, hn, h⟩
  · exact .inl h
  · right
    rw [htmp] at hn
    rw [h, ← hn]

example : afterBody exFS ([(1, (tmpOf exName, some (.file [0]))), (0, (tmpOf exName,
    some (.file [0, 5])))].map Prod.snd) (tmpOf exName) = some (.file [0, 5]) := by decide

/-- **C56 fails** in general: nothing keeps rank 0 from renaming the file while another rank is still
writing to it. Rank 0 finishes first, and a reader then finds a file that lacks what rank 1 has
still to write. -/
theorem C56_other_rank_violated :
    ∃ (fs : FS) (name : Path) (b0 b1 : List Change), (∀ c ∈ b0 ++ b1, c.1 = tmpOf name) ∧
      -- the complete file: both bodies done
      afterBody (enter fs name) (b0 ++ b1) (tmpOf name) = some (.file [1, 2]) ∧
      -- rank 0 leaves its block without an exception while `b1` is still to be done
      (block fs name false b0 none).exc = none ∧
      (block fs name false b0 none).final name = some (.file [1, 0]) ∧ fs name = none :=
  ⟨fun _ => none, exName, [(tmpOf exName, some (.file [0, 0])), (tmpOf exName, some (.file [1, 0]))],
    [(tmpOf exName, some (.file [1, 2]))], by decide, by decide, by decide, by decide, rfl⟩

/-! ## C55: two writers at the same time -/

/-- **C55**, different names: two blocks run at the same time, their system calls interleaved in any
way, each writing only the temporary file it was given. If neither final name is a temporary or
lock file name of the other, and the two do not share one, both files are published complete and
nothing else is left behind. -/
theorem C55_different_names_partial (fs : FS) (n₁ n₂ : Path) (b₁ b₂ : List Change)
    (hb₁ : ∀ c ∈ b₁, c.1 = tmpOf n₁) (hb₂ : ∀ c ∈ b₂, c.1 = tmpOf n₂)
    (hdis : ∀ p, Uses n₁ p → ¬ Uses n₂ p) (new₁ new₂ : List Nat)
    (ht₁ : afterBody (enter fs n₁) b₁ (tmpOf n₁) = some (.file new₁))
    (ht₂ : afterBody (enter fs n₂) b₂ (tmpOf n₂) = some (.file new₂))
    (hd₁ : ∀ l, fs n₁ ≠ some (.dir l)) (hd₂ : ∀ l, fs n₂ ≠ some (.dir l))
    (c : List Step) (hc : Interleaving (writer n₁ b₁) (writer n₂ b₂) c) :
    runSteps fs c n₁ = some (.file new₁) ∧ runSteps fs c n₂ = some (.file new₂) ∧
      (∀ p ∈ [tmpOf n₁, lockOf n₁, tmpOf n₂, lockOf n₂], runSteps fs c p = none) := by
  have l₁ := writer_local n₁ b₁ hb₁
  have l₂ := writer_local n₂ b₂ hb₂
  have r₁ := runSteps_local _ _ hdis _ _ _ hc l₁ l₂ fs fs (fun _ _ => rfl)
  have r₂ := runSteps_local _ _ (fun p h2 h1 => hdis p h1 h2) _ _ _ hc.symm l₂ l₁ fs fs
    (fun _ _ => rfl)
  obtain ⟨p1, p2, p3⟩ := writer_publishes fs n₁ b₁ hb₁ new₁ ht₁ hd₁
  obtain ⟨q1, q2, q3⟩ := writer_publishes fs n₂ b₂ hb₂ new₂ ht₂ hd₂
  refine ⟨?_, ?_, ?_⟩
  · rw [r₁ _ (.inl rfl), p1]
  · rw [r₂ _ (.inl rfl), q1]
  · intro p hp
    simp only [List.mem_cons, List.not_mem_nil, or_false] at hp
    rcases hp with rfl | rfl | rfl | rfl
    · rw [r₁ _ (.inr (.inl rfl)), p2]
    · rw [r₁ _ (.inr (.inr rfl)), p3]
    · rw [r₂ _ (.inr (.inl rfl)), q2]
    · rw [r₂ _ (.inr (.inr rfl)), q3]

/-- Two names in different directories never share a path, nor do two ordinary names in the same
one: different base names neither of which begins with a dot nor is the other one followed by
`.lock`. -/
theorem C55_ordinary_names (n₁ n₂ : Path) (h : n₁ ≠ n₂)
    (hbase : ∀ s, n₁.base ≠ "." ++ s ∧ n₂.base ≠ "." ++ s)
    (hlock : n₁.base ≠ n₂.base ++ ".lock" ∧ n₂.base ≠ n₁.base ++ ".lock") :
    ∀ p, Uses n₁ p → ¬ Uses n₂ p := by
  have inj : ∀ s t : String, "." ++ s = "." ++ t → s = t := fun s t h => by simpa using h
  have inj2 : ∀ s t : String, s ++ ".lock" = t ++ ".lock" → s = t := fun s t h => by simpa using h
  have pe : ∀ p q : Path, p = q ↔ p.dir = q.dir ∧ p.base = q.base := by
    intro p q; cases p; cases q; simp
  rintro p h1 h2
  have hne : ¬ (n₁.dir = n₂.dir ∧ n₁.base = n₂.base) := fun e => h ((pe _ _).2 e)
  rcases h1 with rfl | rfl | rfl <;> rcases h2 with h2 | h2 | h2 <;>
    rw [pe] at h2 <;> try simp only [tmpOf, lockOf] at h2
  · exact hne h2
  · exact (hbase _).1 h2.2
  · exact (hbase (n₂.base ++ ".lock")).1 (by rw [h2.2, String.append_assoc])
  · exact (hbase _).2 h2.2.symm
  · exact hne ⟨h2.1, inj _ _ h2.2⟩
  · exact hlock.1 (inj _ _ (by rw [h2.2, String.append_assoc]))
  · exact (hbase (n₁.base ++ ".lock")).2 (by rw [← h2.2, String.append_assoc])
  · exact hlock.2 (inj _ _ (by rw [← h2.2, String.append_assoc]))
  · exact hne ⟨h2.1, inj _ _ (inj2 _ _ h2.2)⟩

example : ∀ p, Uses ⟨"d", "a.h5"⟩ p → ¬ Uses ⟨"d", "b.h5"⟩ p := by
  rintro p (rfl | rfl | rfl) (h | h | h) <;> revert h <;> decide

/-- **C55 fails** for the same name: there is no mutual exclusion. In this interleaving the first
writer has written its file, the second one opens (and so truncates) the same temporary file, and
the first one then publishes it: a reader finds neither complete file. -/
theorem C55_same_name_violated :
    ∃ (name : Path) (b₁ b₂ : List Change) (c : List Step) (k : Nat),
      (∀ x ∈ b₁, x.1 = tmpOf name) ∧ (∀ x ∈ b₂, x.1 = tmpOf name) ∧
      afterBody (enter (fun _ => none) name) b₁ (tmpOf name) = some (.file [1, 1]) ∧
      afterBody (enter (fun _ => none) name) b₂ (tmpOf name) = some (.file [2, 2]) ∧
      Interleaving (writer name b₁) (writer name b₂) c ∧
      runSteps (fun _ => none) (c.take k) name = some (.file []) :=
  ⟨exName, [(tmpOf exName, some (.file [1, 1]))],
    [(tmpOf exName, some (.file [])), (tmpOf exName, some (.file [2, 2]))], _, 5,
    by decide, by decide, by decide, by decide,
    .left (.left (.right (.right (.left (.left (.right (.right (.right .nil)))))))), by decide⟩

/-- **C55 fails** for `x` and `x.lock` in one directory: the lock file of the first is the temporary
file of the second, and leaving the first block deletes what the second has written, so that it is
never published. -/
theorem C55_lock_name_violated :
    ∃ (n₁ n₂ : Path) (b₁ b₂ : List Change) (c : List Step), n₁ ≠ n₂ ∧
      (∀ x ∈ b₁, x.1 = tmpOf n₁) ∧ (∀ x ∈ b₂, x.1 = tmpOf n₂) ∧
      afterBody (enter (fun _ => none) n₂) b₂ (tmpOf n₂) = some (.file [2, 2]) ∧
      Interleaving (writer n₁ b₁) (writer n₂ b₂) c ∧
      runSteps (fun _ => none) c n₂ = none :=
  ⟨⟨"d", "x"⟩, ⟨"d", "x.lock"⟩, [(⟨"d", ".x"⟩, some (.file [1]))],
    [(⟨"d", ".x.lock"⟩, some (.file [2, 2]))], _,
    by decide, by decide, by decide, by decide,
    .left (.left (.right (.right (.left (.left (.right (.right .nil))))))), by decide⟩

end Verif.Lock
