import Verif.Dirs.Model

/-!
# Lemmas about making directories
-/
namespace Verif.Dirs

/-- What is there stays, and nothing but directories is added. -/
def Grows (fs fs' : FS) : Prop := (∀ q k, fs q = some k → fs' q = some k) ∧ ∀ q, fs' q = some .file → fs q = some .file

theorem Grows.refl (fs : FS) : Grows fs fs := ⟨fun _ _ h => h, fun _ h => h⟩

theorem Grows.trans {a b c : FS} (h : Grows a b) (h' : Grows b c) : Grows a c :=
  ⟨fun q k hk => h'.1 q k (h.1 q k hk), fun q hq => h.2 q (h'.2 q hq)⟩

theorem mkdir_grows (fs : FS) (q : Path) : Grows fs (mkdir fs q).1 := by
  unfold mkdir
  cases h : fs q with
  | some k => exact Grows.refl fs
  | none =>
    dsimp only
    cases hd : fs q.dropLast with
    | none => exact Grows.refl fs
    | some k =>
      cases k with
      | file => exact Grows.refl fs
      | dir =>
        constructor
        · intro r k hr
          dsimp only
          rw [if_neg (by rintro rfl; rw [h] at hr; cases hr)]
          exact hr
        · intro r hr
          dsimp only at hr
          split at hr
          · cases hr
          · exact hr

theorem step_grows (p : Proc) (fs : FS) (pc : PC) : Grows fs (p.step fs pc).1 := by
  cases pc with
  | start => unfold Proc.step; dsimp only; (repeat' split) <;> exact Grows.refl fs
  | check k => unfold Proc.step; dsimp only; split <;> exact Grows.refl fs
  | handler e => unfold Proc.step; dsimp only; split <;> exact Grows.refl fs
  | done => exact Grows.refl fs
  | failed e => exact Grows.refl fs
  | mk k =>
    unfold Proc.step
    dsimp only
    have h := mkdir_grows fs (p.path k)
    generalize mkdir fs (p.path k) = r at *
    obtain ⟨fs1, e⟩ := r
    dsimp only at h ⊢
    split
    · exact Grows.refl fs
    · cases e with
      | none => dsimp only; split <;> exact h
      | some e => cases e <;> dsimp only <;> (try split) <;> exact h

theorem path_len (p : Proc) : p.path p.len = p.base ++ p.comps := by
  unfold Proc.path Proc.len; rw [List.take_length]

theorem path_dropLast (p : Proc) {k : Nat} (h1 : 1 ≤ k) (h2 : k ≤ p.len) : (p.path k).dropLast = p.path (k - 1) := by
  unfold Proc.path
  unfold Proc.len at h2
  have ht : p.comps.take k = p.comps.take (k - 1) ++ [p.comps[k - 1]'(by omega)] := by
    rw [List.take_append_getElem, Nat.sub_add_cancel h1]
  rw [ht, ← List.append_assoc, List.dropLast_concat]

/-- Nothing is in the way of the path: it begins at a directory, and none of its parts is a file. -/
def Free (p : Proc) (fs : FS) : Prop := fs p.base = some .dir ∧ ∀ k, k ≤ p.len → fs (p.path k) ≠ some .file

theorem Free.grows {p : Proc} {fs fs' : FS} (h : Free p fs) (hg : Grows fs fs') : Free p fs' :=
  ⟨hg.1 _ _ h.1, fun k hk hf => h.2 k hk (hg.2 _ hf)⟩

/-- What holds while a process is going on. -/
def PcInv (p : Proc) (fs : FS) : PC → Prop
  | .start => True
  | .check k => 1 ≤ k ∧ k ≤ p.len
  | .mk k => 1 ≤ k ∧ k ≤ p.len ∧ fs (p.path (k - 1)) = some .dir
  | .handler _ => fs (p.path p.len) = some .dir
  | .done => fs (p.path p.len) = some .dir
  | .failed e => p.caller = .task ∧ e = .fileExists ∧ fs (p.path p.len) = some .dir

theorem PcInv.grows {p : Proc} {fs fs' : FS} {pc : PC} (h : PcInv p fs pc) (hg : Grows fs fs') : PcInv p fs' pc := by
  cases pc with
  | start => trivial
  | check k => exact h
  | mk k => exact ⟨h.1, h.2.1, hg.1 _ _ h.2.2⟩
  | handler e => exact hg.1 _ _ h
  | done => exact hg.1 _ _ h
  | failed e => exact ⟨h.1, h.2.1, hg.1 _ _ h.2.2⟩

/-- What `os.mkdir` does where the parent is a directory and no file is in the way. -/
theorem mkdir_cases (fs : FS) (q : Path) (hp : fs q.dropLast = some .dir) (hf : fs q ≠ some .file) :
    (mkdir fs q).1 q = some .dir ∧ ((mkdir fs q).2 = none ∨ (mkdir fs q).2 = some .fileExists) := by
  unfold mkdir
  cases h : fs q with
  | some k =>
    cases k with
    | file => exact absurd h hf
    | dir => exact ⟨h, .inr rfl⟩
  | none => rw [hp]; exact ⟨by simp, .inl rfl⟩

theorem step_inv (p : Proc) (fs : FS) (pc : PC) (hb : p.bare = false) (hf : Free p fs)
    (h : PcInv p fs pc) : PcInv p (p.step fs pc).1 (p.step fs pc).2 := by
  cases pc with
  | start =>
    unfold Proc.step
    dsimp only
    rw [if_neg (by simp [hb])]
    by_cases hd : p.isdir fs = true
    · rw [if_pos hd]
      simp [Proc.isdir, hb] at hd
      exact hd
    · rw [if_neg hd]
      refine ⟨?_, Nat.le_refl _⟩
      rcases Nat.eq_zero_or_pos p.len with h0 | h0
      · exfalso
        apply hd
        have : p.path p.len = p.base := by
          rw [h0]; unfold Proc.path; simp
        simp [Proc.isdir, hb, this, hf.1]
      · exact h0
  | check k =>
    unfold Proc.step
    dsimp only
    obtain ⟨h1, h2⟩ := h
    by_cases hk : k ≤ 1 ∨ (fs (p.path (k - 1))).isSome = true
    · rw [if_pos hk]
      refine ⟨h1, h2, ?_⟩
      by_cases hk1 : k ≤ 1
      · have : k - 1 = 0 := by omega
        rw [this]; unfold Proc.path; simpa using hf.1
      · rcases hk with hk | hk
        · exact absurd hk hk1
        · have := hf.2 (k - 1) (by omega)
          cases hq : fs (p.path (k - 1)) with
          | none => rw [hq] at hk; cases hk
          | some x =>
            cases x with
            | dir => exact hq
            | file => exact absurd hq this
    · rw [if_neg hk]
      exact ⟨show 1 ≤ k - 1 by omega, show k - 1 ≤ p.len by omega⟩
  | mk k =>
    obtain ⟨h1, h2, h3⟩ := h
    have hm := mkdir_cases fs (p.path k) (by rw [path_dropLast p h1 h2]; exact h3) (hf.2 k h2)
    unfold Proc.step
    dsimp only
    simp only [hb, Bool.false_eq_true, if_false]
    generalize mkdir fs (p.path k) = r at *
    obtain ⟨fs1, e⟩ := r
    dsimp only at hm ⊢
    obtain ⟨hm1, rfl | rfl⟩ := hm
    · dsimp only
      by_cases hk : k = p.len
      · rw [if_pos hk]; subst hk; exact hm1
      · rw [if_neg hk]
        exact ⟨show 1 ≤ k + 1 by omega, show k + 1 ≤ p.len by omega, hm1⟩
    · dsimp only
      by_cases hk : k = p.len
      · rw [if_pos hk]
        subst hk
        unfold Proc.raise
        cases hc : p.caller with
        | task => exact ⟨hc, rfl, hm1⟩
        | group => exact hm1
        | container => exact hm1
      · rw [if_neg hk]
        exact ⟨show 1 ≤ k + 1 by omega, show k + 1 ≤ p.len by omega, hm1⟩
  | handler e =>
    unfold Proc.step
    dsimp only
    have hd : p.isdir fs = true := by
      simp only [Proc.isdir, hb]
      rw [show fs (p.path p.len) = some .dir from h]
      rfl
    rw [if_pos hd]
    exact h
  | done => exact h
  | failed e => exact h

/-- The world never gets in the way. -/
theorem move_grows (ps : List Proc) (w : World) (m : Move) : Grows w.fs (w.move ps m).fs := by
  cases m with
  | other q => exact mkdir_grows w.fs q
  | proc i =>
    unfold World.move
    dsimp only
    split
    · exact step_grows _ _ _
    · exact Grows.refl _

theorem run_grows (ps : List Proc) : ∀ (ms : List Move) (w : World), Grows w.fs (w.run ps ms).fs
  | [], w => Grows.refl _
  | m :: ms, w => (move_grows ps w m).trans (run_grows ps ms (w.move ps m))

theorem move_pc (ps : List Proc) (w : World) (m : Move) (i : Nat) (p : Proc) (pc : PC) (hp : ps[i]? = some p)
    (hpc : w.pcs[i]? = some pc) :
    (m = .proc i → (w.move ps m).pcs[i]? = some (p.step w.fs pc).2 ∧ (w.move ps m).fs = (p.step w.fs pc).1) ∧
    (m ≠ .proc i → (w.move ps m).pcs[i]? = some pc) := by
  constructor
  · rintro rfl
    unfold World.move
    simp only [hp, hpc]
    have hi : i < w.pcs.length := by
      rcases Nat.lt_or_ge i w.pcs.length with h | h
      · exact h
      · rw [List.getElem?_eq_none h] at hpc; cases hpc
    exact ⟨by rw [List.getElem?_set_self hi], trivial⟩
  · intro hm
    cases m with
    | other q => exact hpc
    | proc j =>
      have hj : j ≠ i := by rintro rfl; exact hm rfl
      unfold World.move
      dsimp only
      split
      · dsimp only; rw [List.getElem?_set_ne hj]; exact hpc
      · exact hpc

theorem run_inv (ps : List Proc) (i : Nat) (p : Proc) (hp : ps[i]? = some p) (hb : p.bare = false) :
    ∀ (ms : List Move) (w : World) (pc : PC), w.pcs[i]? = some pc → Free p w.fs → PcInv p w.fs pc →
      ∃ pc', (w.run ps ms).pcs[i]? = some pc' ∧ PcInv p (w.run ps ms).fs pc'
  | [], w, pc, h, _, hi => ⟨pc, h, hi⟩
  | m :: ms, w, pc, h, hf, hi => by
    have hm := move_pc ps w m i p pc hp h
    have hg := move_grows ps w m
    show ∃ pc', ((w.move ps m).run ps ms).pcs[i]? = some pc' ∧ PcInv p ((w.move ps m).run ps ms).fs pc'
    by_cases he : m = .proc i
    · obtain ⟨h1, h2⟩ := hm.1 he
      exact run_inv ps i p hp hb ms _ _ h1 (hf.grows hg) (h2 ▸ step_inv p w.fs pc hb hf hi)
    · exact run_inv ps i p hp hb ms _ _ (hm.2 he) (hf.grows hg) (hi.grows hg)

/-- A container with a plain file name is through after one step. -/
theorem run_bare (ps : List Proc) (i : Nat) (p : Proc) (hp : ps[i]? = some p) (hc : p.caller = .container) (hb : p.bare = true) :
    ∀ (ms : List Move) (w : World) (pc : PC), w.pcs[i]? = some pc → (pc = .start ∨ pc = .done) →
      ∃ pc', (w.run ps ms).pcs[i]? = some pc' ∧ (pc' = .start ∨ pc' = .done)
  | [], _, pc, h, hi => ⟨pc, h, hi⟩
  | m :: ms, w, pc, h, hi => by
    have hm := move_pc ps w m i p pc hp h
    by_cases he : m = .proc i
    · obtain ⟨h1, -⟩ := hm.1 he
      refine run_bare ps i p hp hc hb ms _ _ h1 (.inr ?_)
      rcases hi with rfl | rfl
      · unfold Proc.step; dsimp only; rw [if_pos ⟨hc, hb⟩]
      · rfl
    · exact run_bare ps i p hp hc hb ms _ _ (hm.2 he) hi

/-! ### Which directories are made -/

theorem mkdir_only (fs : FS) (q r : Path) (h : (mkdir fs q).1 r ≠ fs r) : r = q ∧ (mkdir fs q).1 r = some .dir := by
  unfold mkdir at h ⊢
  cases hq : fs q with
  | some k => rw [hq] at h; exact absurd rfl h
  | none =>
    rw [hq] at h
    cases hd : fs q.dropLast with
    | none => rw [hd] at h; exact absurd rfl h
    | some k =>
      rw [hd] at h
      cases k with
      | file => exact absurd rfl h
      | dir =>
        dsimp only at h ⊢
        split at h
        · rename_i he; exact ⟨he, by rw [if_pos he]⟩
        · exact absurd rfl h

theorem step_only (p : Proc) (fs : FS) (pc : PC) (r : Path) (h : (p.step fs pc).1 r ≠ fs r) :
    ∃ k, r = p.path k ∧ (p.step fs pc).1 r = some .dir := by
  cases pc with
  | start => exfalso; apply h; unfold Proc.step; dsimp only; (repeat' split) <;> rfl
  | check k => exfalso; apply h; unfold Proc.step; dsimp only; split <;> rfl
  | handler e => exfalso; apply h; unfold Proc.step; dsimp only; split <;> rfl
  | done => exact absurd rfl h
  | failed e => exact absurd rfl h
  | mk k =>
    have hm := mkdir_only fs (p.path k) r
    have : (p.step fs (.mk k)).1 = fs ∨ (p.step fs (.mk k)).1 = (mkdir fs (p.path k)).1 := by
      unfold Proc.step
      dsimp only
      generalize mkdir fs (p.path k) = x
      obtain ⟨fs1, e⟩ := x
      split
      · exact .inl rfl
      · cases e with
        | none => dsimp only; split <;> exact .inr rfl
        | some e => cases e <;> dsimp only <;> (try split) <;> exact .inr rfl
    rcases this with h' | h'
    · rw [h'] at h; exact absurd rfl h
    · rw [h'] at h ⊢
      exact ⟨k, (hm h).1, (hm h).2⟩

theorem run_only (ps : List Proc) : ∀ (ms : List Move) (w : World) (r : Path), (w.run ps ms).fs r ≠ w.fs r →
    (∃ p ∈ ps, ∃ k, r = p.path k) ∨ Move.other r ∈ ms
  | [], _, _, h => absurd rfl h
  | m :: ms, w, r, h => by
    by_cases h1 : (w.move ps m).fs r = w.fs r
    · have : ((w.move ps m).run ps ms).fs r ≠ (w.move ps m).fs r := by rw [h1]; exact h
      rcases run_only ps ms _ r this with a | a
      · exact .inl a
      · exact .inr (List.mem_cons_of_mem _ a)
    · cases m with
      | other q =>
        have := (mkdir_only w.fs q r h1).1
        subst this
        exact .inr List.mem_cons_self
      | proc j =>
        unfold World.move at h1
        dsimp only at h1
        split at h1
        · rename_i p pc hp hpc
          obtain ⟨k, hk, -⟩ := step_only p w.fs pc r h1
          exact .inl ⟨p, List.mem_of_getElem? hp, k, hk⟩
        · exact absurd rfl h1

/-! ### Every process comes to an end -/

/-- Steps that are left. -/
def left (p : Proc) : PC → Nat
  | .start => 2 * p.len + 4
  | .check k => p.len + 3 + k
  | .mk k => p.len + 2 - k
  | .handler _ => 1
  | .done => 0
  | .failed _ => 0

def PcOk (p : Proc) : PC → Prop
  | .check k => k ≤ p.len
  | .mk k => k ≤ p.len
  | _ => True

theorem raise_left (p : Proc) (e : Err) : left p (p.raise e) ≤ 1 ∧ PcOk p (p.raise e) := by
  unfold Proc.raise
  cases p.caller <;> exact ⟨by simp [left], trivial⟩

theorem step_left (p : Proc) (fs : FS) (pc : PC) (h : PcOk p pc) :
    PcOk p (p.step fs pc).2 ∧ (left p (p.step fs pc).2 < left p pc ∨ left p pc = 0 ∧ (p.step fs pc).2 = pc) := by
  cases pc with
  | start =>
    unfold Proc.step
    dsimp only
    split
    · exact ⟨trivial, .inl (by simp [left])⟩
    · split
      · exact ⟨trivial, .inl (by simp [left])⟩
      · exact ⟨Nat.le_refl _, .inl (by simp only [left]; omega)⟩
  | check k =>
    have hk : k ≤ p.len := h
    unfold Proc.step
    dsimp only
    split
    · exact ⟨hk, .inl (by simp only [left]; omega)⟩
    · exact ⟨show k - 1 ≤ p.len by omega, .inl (by simp only [left]; omega)⟩
  | mk k =>
    have hk : k ≤ p.len := h
    unfold Proc.step
    dsimp only
    have hr := raise_left p
    split
    · have := hr .notFound
      exact ⟨this.2, .inl (by have := this.1; simp only [left] at this ⊢; omega)⟩
    · generalize mkdir fs (p.path k) = r
      obtain ⟨fs1, e⟩ := r
      cases e with
      | none =>
        dsimp only
        split
        · exact ⟨trivial, .inl (by simp only [left]; omega)⟩
        · exact ⟨show k + 1 ≤ p.len by omega, .inl (by simp only [left]; omega)⟩
      | some e =>
        cases e with
        | fileExists =>
          dsimp only
          split
          · have := hr .fileExists
            exact ⟨this.2, .inl (by have := this.1; simp only [left] at this ⊢; omega)⟩
          · exact ⟨show k + 1 ≤ p.len by omega, .inl (by simp only [left]; omega)⟩
        | notFound =>
          have := hr .notFound
          exact ⟨this.2, .inl (by have := this.1; simp only [left] at this ⊢; omega)⟩
        | notADirectory =>
          have := hr .notADirectory
          exact ⟨this.2, .inl (by have := this.1; simp only [left] at this ⊢; omega)⟩
  | handler e =>
    unfold Proc.step
    dsimp only
    split <;> exact ⟨trivial, .inl (by simp [left])⟩
  | done => exact ⟨trivial, .inr ⟨rfl, rfl⟩⟩
  | failed e => exact ⟨trivial, .inr ⟨rfl, rfl⟩⟩

/-- How often it is the turn of a process. -/
def turns (i : Nat) : List Move → Nat
  | [] => 0
  | .proc j :: ms => (if j = i then 1 else 0) + turns i ms
  | .other _ :: ms => turns i ms

theorem run_left (ps : List Proc) (i : Nat) (p : Proc) (hp : ps[i]? = some p) :
    ∀ (ms : List Move) (w : World) (pc : PC), w.pcs[i]? = some pc → PcOk p pc →
      ∃ pc', (w.run ps ms).pcs[i]? = some pc' ∧ PcOk p pc' ∧ left p pc' ≤ left p pc - turns i ms
  | [], w, pc, h, hk => ⟨pc, h, hk, by simp [turns]⟩
  | m :: ms, w, pc, h, hk => by
    have hm := move_pc ps w m i p pc hp h
    show ∃ pc', ((w.move ps m).run ps ms).pcs[i]? = some pc' ∧ _
    by_cases he : m = .proc i
    · obtain ⟨h1, -⟩ := hm.1 he
      obtain ⟨k1, k2⟩ := step_left p w.fs pc hk
      obtain ⟨pc', a, b, c⟩ := run_left ps i p hp ms _ _ h1 k1
      refine ⟨pc', a, b, ?_⟩
      subst he
      simp only [turns, if_true]
      rcases k2 with k2 | ⟨k2, k3⟩
      · omega
      · rw [k3] at c; omega
    · obtain ⟨pc', a, b, c⟩ := run_left ps i p hp ms _ _ (hm.2 he) hk
      refine ⟨pc', a, b, ?_⟩
      have : turns i (m :: ms) = turns i ms := by
        cases m with
        | other q => rfl
        | proc j =>
          have : j ≠ i := by rintro rfl; exact he rfl
          simp [turns, this]
      omega

theorem left_zero {p : Proc} {pc : PC} (hk : PcOk p pc) (h : left p pc = 0) : pc = .done ∨ ∃ e, pc = .failed e := by
  cases pc with
  | start => simp [left] at h
  | check k => simp [left] at h
  | mk k => have : k ≤ p.len := hk; simp only [left] at h; omega
  | handler e => simp [left] at h
  | done => exact .inl rfl
  | failed e => exact .inr ⟨e, rfl⟩

/-! ### A process alone -/

/-- What holds while a process is going on alone. -/
def AloneInv (p : Proc) (fs : FS) : PC → Prop
  | .start => True
  | .check k => 1 ≤ k ∧ k ≤ p.len ∧ fs (p.path p.len) = none
  | .mk k => 1 ≤ k ∧ k ≤ p.len ∧ fs (p.path (k - 1)) = some .dir ∧ fs (p.path p.len) = none
  | .handler _ => False
  | .done => fs (p.path p.len) = some .dir
  | .failed _ => False

theorem mkdir_other (fs : FS) (q r : Path) (h : r ≠ q) : (mkdir fs q).1 r = fs r := by
  unfold mkdir
  cases fs q with
  | some k => rfl
  | none =>
    cases hd : fs q.dropLast with
    | none => rfl
    | some k =>
      cases k with
      | file => rfl
      | dir => simp [h]

theorem mkdir_new (fs : FS) (q : Path) (h : fs q = none) (hp : fs q.dropLast = some .dir) : (mkdir fs q).2 = none := by
  unfold mkdir; rw [h, hp]

theorem path_ne (p : Proc) {k : Nat} (h : k < p.len) : p.path p.len ≠ p.path k := by
  intro he
  have := congrArg List.length he
  unfold Proc.path Proc.len at *
  simp [List.length_take] at this
  omega

theorem alone_step (p : Proc) (fs : FS) (pc : PC) (hb : p.bare = false) (hf : Free p fs) (h : AloneInv p fs pc) :
    AloneInv p (p.step fs pc).1 (p.step fs pc).2 := by
  cases pc with
  | start =>
    unfold Proc.step
    dsimp only
    rw [if_neg (by simp [hb])]
    by_cases hd : p.isdir fs = true
    · rw [if_pos hd]
      simp [Proc.isdir, hb] at hd
      exact hd
    · rw [if_neg hd]
      have hn : fs (p.path p.len) ≠ some .dir := by
        intro he; apply hd; simp [Proc.isdir, hb, he]
      refine ⟨?_, Nat.le_refl _, ?_⟩
      · rcases Nat.eq_zero_or_pos p.len with h0 | h0
        · exfalso
          apply hn
          rw [h0]; unfold Proc.path; simpa using hf.1
        · exact h0
      · show fs (p.path p.len) = none
        cases hq : fs (p.path p.len) with
        | none => rfl
        | some x =>
          cases x with
          | dir => exact absurd hq hn
          | file => exact absurd hq (hf.2 _ (Nat.le_refl _))
  | check k =>
    obtain ⟨h1, h2, h3⟩ := h
    unfold Proc.step
    dsimp only
    by_cases hk : k ≤ 1 ∨ (fs (p.path (k - 1))).isSome = true
    · rw [if_pos hk]
      refine ⟨h1, h2, ?_, h3⟩
      by_cases hk1 : k ≤ 1
      · have : k - 1 = 0 := by omega
        rw [this]; unfold Proc.path; simpa using hf.1
      · rcases hk with hk | hk
        · exact absurd hk hk1
        · have := hf.2 (k - 1) (by omega)
          cases hq : fs (p.path (k - 1)) with
          | none => rw [hq] at hk; cases hk
          | some x =>
            cases x with
            | dir => exact hq
            | file => exact absurd hq this
    · rw [if_neg hk]
      exact ⟨show 1 ≤ k - 1 by omega, show k - 1 ≤ p.len by omega, h3⟩
  | mk k =>
    obtain ⟨h1, h2, h3, h4⟩ := h
    have hd : fs (p.path k).dropLast = some .dir := by rw [path_dropLast p h1 h2]; exact h3
    have hm := mkdir_cases fs (p.path k) hd (hf.2 k h2)
    have hn := mkdir_new fs (p.path k)
    have ho := mkdir_other fs (p.path k) (p.path p.len)
    unfold Proc.step
    dsimp only
    simp only [hb, Bool.false_eq_true, if_false]
    by_cases hk : k = p.len
    · subst hk
      replace hn := hn h4 hd
      generalize mkdir fs (p.path p.len) = r at *
      obtain ⟨fs1, e⟩ := r
      dsimp only at hm hn ⊢
      subst hn
      dsimp only
      rw [if_pos rfl]
      exact hm.1
    · replace ho := ho (path_ne p (by omega))
      generalize mkdir fs (p.path k) = r at *
      obtain ⟨fs1, e⟩ := r
      dsimp only at hm ho ⊢
      obtain ⟨hm1, rfl | rfl⟩ := hm
      · dsimp only
        rw [if_neg hk]
        exact ⟨show 1 ≤ k + 1 by omega, show k + 1 ≤ p.len by omega, hm1, ho.trans h4⟩
      · dsimp only
        rw [if_neg hk]
        exact ⟨show 1 ≤ k + 1 by omega, show k + 1 ≤ p.len by omega, hm1, ho.trans h4⟩
  | handler e => exact absurd h id
  | done => exact h
  | failed e => exact h

theorem alone_run (p : Proc) (hb : p.bare = false) : ∀ (n : Nat) (fs : FS) (pc : PC), Free p fs → AloneInv p fs pc →
    ∃ pc', ((⟨fs, [pc]⟩ : World).run [p] (List.replicate n (.proc 0))).pcs = [pc'] ∧
      AloneInv p ((⟨fs, [pc]⟩ : World).run [p] (List.replicate n (.proc 0))).fs pc'
  | 0, fs, pc, _, h => ⟨pc, rfl, h⟩
  | n + 1, fs, pc, hf, h => alone_run p hb n _ _ (hf.grows (step_grows p fs pc)) (alone_step p fs pc hb hf h)

end Verif.Dirs
