import Verif.Chunks.Model
import Verif.Split.Lemmas

namespace Verif.Chunks

variable {κ α : Type} [DecidableEq κ]

theorem upd_same {β γ : Type} [DecidableEq γ] (f : γ → β) (a : γ) (v : β) : upd f a v a = v := by simp [upd]

theorem upd_ne {β γ : Type} [DecidableEq γ] (f : γ → β) (a : γ) (v : β) {x : γ} (h : x ≠ a) : upd f a v x = f x := by simp [upd, h]

/-- The process has the lock of this chunk, of directory `g`. -/
def Holds (p : Proc κ α) (g : Nat) (c : κ) : Prop :=
  (p.stage = .locked g ∨ (∃ b, p.stage = .holding g b) ∨ p.stage = .written g) ∧ ∃ w ws, p.now = w :: ws ∧ w.chunk = c

/-- The writes left to a process. -/
def left (p : Proc κ α) : List (Write κ α) :=
  match p.stage with
  | .written _ => p.now.tail ++ p.later.flatten
  | .start => p.later.flatten
  | .clean => p.later.flatten
  | .finish => p.later.flatten
  | _ => p.now ++ p.later.flatten

/-- The store after these writes, by one process alone. -/
def alone (s : κ → Nat → α) : List (Write κ α) → κ → Nat → α
  | [] => s
  | w :: ws => alone (upd s w.chunk (w.apply (s w.chunk))) ws

def touches (ws : List (Write κ α)) (c : κ) (x : Nat) : Prop := ∃ w ∈ ws, w.chunk = c ∧ w.cells x ≠ none

theorem alone_congr (ws : List (Write κ α)) (c : κ) (x : Nat) : ∀ s s' : κ → Nat → α, s c x = s' c x → alone s ws c x = alone s' ws c x := by
  induction ws with
  | nil => intro s s' h; exact h
  | cons w ws ih =>
    intro s s' h
    apply ih
    by_cases hc : c = w.chunk
    · subst hc
      rw [upd_same, upd_same]
      unfold Write.apply
      cases w.cells x <;> simp [h]
    · rw [upd_ne _ _ _ hc, upd_ne _ _ _ hc]; exact h

theorem apply_untouched (s : κ → Nat → α) (w : Write κ α) (c : κ) (x : Nat) (h : ¬ (w.chunk = c ∧ w.cells x ≠ none)) :
    upd s w.chunk (w.apply (s w.chunk)) c x = s c x := by
  by_cases hc : c = w.chunk
  · subst hc
    rw [upd_same]
    unfold Write.apply
    cases hx : w.cells x with
    | none => rfl
    | some v => exact absurd ⟨rfl, by simp [hx]⟩ h
  · rw [upd_ne _ _ _ hc]

def inRound (p : Proc κ α) : Nat :=
  match p.stage with
  | .start => 0
  | _ => 1

structure Inv (n R : Nat) (prog : Nat → List (List (Write κ α))) (init : κ → Nat → α) (s : St κ α) : Prop where
  sync : ∀ i < n, ∀ j < n, (s.procs i).passed ≤ (s.procs j).passed ∨ ((s.procs i).passed = (s.procs j).passed + 1 ∧ (s.procs j).arrived = true)
  rounds : ∀ i < n, (s.procs i).round + inRound (s.procs i) + (s.procs i).later.length = R
  cleaner : ∀ i, (s.procs i).stage = .clean → i = 0
  gen : ∀ i < n, ∀ g, ((s.procs i).stage = .locked g ∨ (∃ b, (s.procs i).stage = .holding g b) ∨ (s.procs i).stage = .written g) → g = s.gen ∧ (s.procs i).now ≠ []
  locks : ∀ g c k, s.locks g c = some k ↔ k < n ∧ Holds (s.procs k) g c
  buf : ∀ i < n, ∀ g b w ws, (s.procs i).stage = .holding g b → (s.procs i).now = w :: ws → b = s.store w.chunk
  sub : ∀ i < n, ∀ w ∈ left (s.procs i), w ∈ (prog i).flatten
  val : ∀ i < n, ∀ c x, touches (prog i).flatten c x → alone s.store (left (s.procs i)) c x = alone init (prog i).flatten c x
  rest : ∀ c x, (∀ i < n, ¬ touches (prog i).flatten c x) → s.store c x = init c x

theorem init_inv (n R : Nat) (prog : Nat → List (List (Write κ α))) (init : κ → Nat → α) (hR : ∀ i < n, (prog i).length = R) :
    Inv n R prog init (St.init init prog) := by
  refine ⟨?_, ?_, ?_, ?_, ?_, ?_, ?_, ?_, ?_⟩
  · intro i _ j _; left; simp [St.init, Proc.passed]
  · intro i hi; simp [St.init, inRound, hR i hi]
  · intro i h; simp [St.init] at h
  · intro i _ g h; simp [St.init] at h
  · intro g c k; simp [St.init, Holds]
  · intro i _ g b w ws h; simp [St.init] at h
  · intro i _ w h; simpa [St.init, left] using h
  · intro i _ c x _; simp [St.init, left]
  · intro c x _; rfl

theorem passes_iff (n : Nat) (s : St κ α) (i : Nat) : passes n s i = true ↔
    ∀ j < n, (s.procs i).passed < (s.procs j).passed ∨ ((s.procs j).passed = (s.procs i).passed ∧ (s.procs j).arrived = true) := by
  simp [passes]

/-- Disjoint writes of different processes. -/
def Apart (n : Nat) (prog : Nat → List (List (Write κ α))) : Prop :=
  ∀ i < n, ∀ j < n, i ≠ j → ∀ c x, ¬ (touches (prog i).flatten c x ∧ touches (prog j).flatten c x)

/-- A step that changes only where a process is: barriers are respected. -/
theorem sync_step {n : Nat} {s : St κ α} {i : Nat} {p : Proc κ α} (hi : i < n)
    (h : ∀ i < n, ∀ j < n, (s.procs i).passed ≤ (s.procs j).passed ∨ ((s.procs i).passed = (s.procs j).passed + 1 ∧ (s.procs j).arrived = true))
    (hp : p.passed = (s.procs i).passed ∧ ((s.procs i).arrived = true → p.arrived = true) ∨
      p.passed = (s.procs i).passed + 1 ∧ (s.procs i).arrived = true ∧ passes n s i = true) :
    ∀ a < n, ∀ b < n, (upd s.procs i p a).passed ≤ (upd s.procs i p b).passed ∨
      ((upd s.procs i p a).passed = (upd s.procs i p b).passed + 1 ∧ (upd s.procs i p b).arrived = true) := by
  intro a ha b hb
  by_cases hai : a = i
  · subst hai
    by_cases hbi : b = a
    · subst hbi; left; exact Nat.le_refl _
    · rw [upd_same, upd_ne _ _ _ hbi]
      rcases hp with ⟨h1, _⟩ | ⟨h1, _, h3⟩
      · rw [h1]; exact h a ha b hb
      · rw [passes_iff] at h3
        rcases h3 b hb with h4 | ⟨h4, h5⟩
        · left; omega
        · right; exact ⟨by omega, h5⟩
  · by_cases hbi : b = i
    · subst hbi
      rw [upd_same, upd_ne _ _ _ hai]
      rcases hp with ⟨h1, h2⟩ | ⟨h1, _, _⟩
      · rcases h a ha b hb with h4 | ⟨h4, h5⟩
        · left; omega
        · right; exact ⟨by omega, h2 h5⟩
      · rcases h a ha b hb with h4 | ⟨h4, _⟩ <;> left <;> omega
    · rw [upd_ne _ _ _ hai, upd_ne _ _ _ hbi]; exact h a ha b hb

/-- A step that does not write. -/
theorem keep {n R : Nat} {prog : Nat → List (List (Write κ α))} {init : κ → Nat → α} {s : St κ α} {i : Nat} {p : Proc κ α} {locks : Nat → κ → Option Nat} {gen : Nat} {files : List κ}
    (h : Inv n R prog init s) (hi : i < n)
    (hp : p.passed = (s.procs i).passed ∧ ((s.procs i).arrived = true → p.arrived = true) ∨
      p.passed = (s.procs i).passed + 1 ∧ (s.procs i).arrived = true ∧ passes n s i = true)
    (hr : p.round + inRound p + p.later.length = (s.procs i).round + inRound (s.procs i) + (s.procs i).later.length)
    (hc : p.stage = .clean → i = 0)
    (hgen : gen = s.gen ∨ ∀ j < n, j ≠ i → ∀ g, ¬ ((s.procs j).stage = .locked g ∨ (∃ b, (s.procs j).stage = .holding g b) ∨ (s.procs j).stage = .written g))
    (hg : ∀ g, (p.stage = .locked g ∨ (∃ b, p.stage = .holding g b) ∨ p.stage = .written g) → g = gen ∧ p.now ≠ [])
    (hl : ∀ g c k, locks g c = some k ↔ k < n ∧ Holds (upd s.procs i p k) g c)
    (hb : ∀ g b w ws, p.stage = .holding g b → p.now = w :: ws → b = s.store w.chunk)
    (hleft : left p = left (s.procs i)) :
    Inv n R prog init { s.set i p with locks := locks, gen := gen, files := files } := by
  refine ⟨sync_step hi h.sync hp, ?_, ?_, ?_, hl, ?_, ?_, ?_, h.rest⟩
  · intro j hj
    show (upd s.procs i p j).round + inRound (upd s.procs i p j) + (upd s.procs i p j).later.length = R
    by_cases hji : j = i
    · subst hji; rw [upd_same, hr]; exact h.rounds j hj
    · rw [upd_ne _ _ _ hji]; exact h.rounds j hj
  · intro j
    show (upd s.procs i p j).stage = .clean → j = 0
    by_cases hji : j = i
    · subst hji; rw [upd_same]; exact hc
    · rw [upd_ne _ _ _ hji]; exact h.cleaner j
  · intro j hj
    show ∀ g, ((upd s.procs i p j).stage = .locked g ∨ (∃ b, (upd s.procs i p j).stage = .holding g b) ∨ (upd s.procs i p j).stage = .written g) → g = gen ∧ (upd s.procs i p j).now ≠ []
    by_cases hji : j = i
    · subst hji; rw [upd_same]; exact hg
    · rw [upd_ne _ _ _ hji]
      intro g hs
      rcases hgen with hgen | hgen
      · rw [hgen]; exact h.gen j hj g hs
      · exact absurd hs (hgen j hj hji g)
  · intro j hj
    show ∀ g b w ws, (upd s.procs i p j).stage = .holding g b → (upd s.procs i p j).now = w :: ws → b = s.store w.chunk
    by_cases hji : j = i
    · subst hji; rw [upd_same]; exact hb
    · rw [upd_ne _ _ _ hji]; exact h.buf j hj
  · intro j hj
    show ∀ w ∈ left (upd s.procs i p j), w ∈ (prog j).flatten
    by_cases hji : j = i
    · subst hji; rw [upd_same, hleft]; exact h.sub j hj
    · rw [upd_ne _ _ _ hji]; exact h.sub j hj
  · intro j hj
    show ∀ c x, touches (prog j).flatten c x → alone s.store (left (upd s.procs i p j)) c x = alone init (prog j).flatten c x
    by_cases hji : j = i
    · subst hji; rw [upd_same, hleft]; exact h.val j hj
    · rw [upd_ne _ _ _ hji]; exact h.val j hj

/-- Locks stay as they are when the process has the same ones. -/
theorem locks_keep {n : Nat} {s : St κ α} {i : Nat} {p : Proc κ α}
    (h : ∀ g c k, s.locks g c = some k ↔ k < n ∧ Holds (s.procs k) g c) (hp : ∀ g c, Holds p g c ↔ Holds (s.procs i) g c) :
    ∀ g c k, s.locks g c = some k ↔ k < n ∧ Holds (upd s.procs i p k) g c := by
  intro g c k
  rw [h g c k]
  by_cases hk : k = i
  · subst hk; rw [upd_same, hp]
  · rw [upd_ne _ _ _ hk]

/-- Two processes do not have the same lock. -/
theorem exclusive {n R : Nat} {prog : Nat → List (List (Write κ α))} {init : κ → Nat → α} {s : St κ α} (h : Inv n R prog init s)
    {i j : Nat} (hi : i < n) (hj : j < n) {g : Nat} {c : κ} (h1 : Holds (s.procs i) g c) (h2 : Holds (s.procs j) g c) : i = j := by
  have e1 := (h.locks g c i).2 ⟨hi, h1⟩
  have e2 := (h.locks g c j).2 ⟨hj, h2⟩
  rw [e1] at e2
  exact Option.some.inj e2

theorem step_inv {n R : Nat} {prog : Nat → List (List (Write κ α))} {init : κ → Nat → α} {s s' : St κ α} {i : Nat}
    (hap : Apart n prog) (h : Inv n R prog init s) (hi : i < n) (hs : step n s i = some s') : Inv n R prog init s' := by
  unfold step at hs
  dsimp only at hs
  cases hst : (s.procs i).stage with
  | start =>
    simp only [hst] at hs
    cases hl : (s.procs i).later with
    | nil => simp [hl] at hs
    | cons ws rest =>
      simp only [hl] at hs
      split at hs
      · rename_i hpass
        injection hs with hs; subst hs
        refine keep (gen := s.gen) h hi (.inr ⟨?_, ?_, hpass⟩) ?_ ?_ (.inl rfl) ?_ (locks_keep h.locks ?_) ?_ ?_
        · simp [Proc.passed, hst]
        · simp [Proc.arrived, hst, hl]
        · simp [inRound, hst, hl]; omega
        · intro hc; simp at hc
        · intro g hg; simp at hg
        · intro g c; simp [Holds, hst]
        · intro g b w ws' hg; simp at hg
        · simp [left, hst, hl]
      · simp at hs
  | ready =>
    simp only [hst] at hs
    cases hn : (s.procs i).now with
    | nil =>
      simp only [hn] at hs
      injection hs with hs; subst hs
      refine keep (gen := s.gen) h hi (.inl ⟨?_, ?_⟩) ?_ ?_ (.inl rfl) ?_ (locks_keep h.locks ?_) ?_ ?_
      · simp [Proc.passed, hst]
      · simp [Proc.arrived]
      · simp [inRound, hst]
      · intro hc; simp at hc
      · intro g hg; simp at hg
      · intro g c; simp [Holds, hst]
      · intro g b w ws' hg; simp at hg
      · simp [left, hst, hn]
    | cons w ws =>
      simp only [hn] at hs
      cases hlk : s.locks s.gen w.chunk with
      | some k => simp [hlk] at hs
      | none =>
        simp only [hlk] at hs
        injection hs with hs; subst hs
        refine keep (gen := s.gen) h hi (.inl ⟨?_, ?_⟩) ?_ ?_ (.inl rfl) ?_ ?_ ?_ ?_
        · simp [Proc.passed, hst]
        · simp [Proc.arrived, hst]
        · simp [inRound, hst]
        · intro hc; simp at hc
        · intro g hg
          simp at hg
          exact ⟨hg.symm, by simp [hn]⟩
        · intro g c k
          by_cases hk : k = i
          · subst hk
            rw [upd_same]
            have hno : ¬ Holds (s.procs k) g c := by simp [Holds, hst]
            have hold := h.locks g c k
            by_cases hg : g = s.gen
            · subst hg
              rw [upd_same]
              by_cases hc : c = w.chunk
              · subst hc; rw [upd_same]
                simp [Holds, hi, hn]
              · rw [upd_ne _ _ _ hc, hold]
                constructor
                · intro hh; exact absurd hh.2 hno
                · rintro ⟨_, _, w', ws', h1, h2⟩
                  simp only [hn] at h1
                  injection h1 with h1 _; subst h1
                  exact absurd h2.symm hc
            · rw [upd_ne _ _ _ hg, hold]
              constructor
              · intro hh; exact absurd hh.2 hno
              · rintro ⟨_, h1, _⟩
                simp at h1
                exact absurd h1.symm hg
          · rw [upd_ne s.procs _ _ hk]
            have hold := h.locks g c k
            by_cases hg : g = s.gen
            · subst hg
              rw [upd_same]
              by_cases hc : c = w.chunk
              · subst hc; rw [upd_same, ← hold, hlk]
                simp; omega
              · rw [upd_ne _ _ _ hc, hold]
            · rw [upd_ne _ _ _ hg, hold]
        · intro g b w ws' hg; simp at hg
        · simp [left, hst, hn]
  | locked g0 =>
    simp only [hst] at hs
    cases hn : (s.procs i).now with
    | nil => simp [hn] at hs
    | cons w ws =>
      simp only [hn] at hs
      injection hs with hs; subst hs
      refine keep (gen := s.gen) h hi (.inl ⟨?_, ?_⟩) ?_ ?_ (.inl rfl) ?_ (locks_keep h.locks ?_) ?_ ?_
      · simp [Proc.passed, hst]
      · simp [Proc.arrived, hst]
      · simp [inRound, hst]
      · intro hc; simp at hc
      · intro g hg
        simp at hg
        subst hg
        exact ⟨(h.gen i hi g0 (.inl hst)).1, by simp [hn]⟩
      · intro g c; simp [Holds, hst, hn]
      · intro g b w' ws' hg hn'
        simp only [hn] at hn'
        injection hn' with h1 _; subst h1
        simp at hg
        exact hg.2.symm
      · simp [left, hst, hn]
  | holding g0 b =>
    simp only [hst] at hs
    cases hn : (s.procs i).now with
    | nil => simp [hn] at hs
    | cons w ws =>
      simp only [hn] at hs
      injection hs with hs; subst hs
      have hbuf := h.buf i hi g0 b w ws hst hn
      subst hbuf
      have hold : Holds (s.procs i) g0 w.chunk := ⟨.inr (.inl ⟨_, hst⟩), w, ws, hn, rfl⟩
      have hw : w ∈ (prog i).flatten := h.sub i hi w (by simp [left, hst, hn])
      refine ⟨sync_step hi h.sync (.inl ⟨?_, ?_⟩), ?_, ?_, ?_, locks_keep h.locks ?_, ?_, ?_, ?_, ?_⟩
      · simp [Proc.passed, hst]
      · simp [Proc.arrived, hst]
      · intro j hj
        simp only [St.set]
        by_cases hji : j = i
        · subst hji; rw [upd_same]; have := h.rounds j hj; simpa [inRound, hst] using this
        · rw [upd_ne _ _ _ hji]; exact h.rounds j hj
      · intro j
        simp only [St.set]
        by_cases hji : j = i
        · subst hji; rw [upd_same]; simp
        · rw [upd_ne _ _ _ hji]; exact h.cleaner j
      · intro j hj
        simp only [St.set]
        by_cases hji : j = i
        · subst hji; rw [upd_same]
          intro g hg
          simp at hg; subst hg
          exact ⟨(h.gen j hj g0 (.inr (.inl ⟨_, hst⟩))).1, by simp [hn]⟩
        · rw [upd_ne _ _ _ hji]; exact h.gen j hj
      · intro g c; simp [Holds, hst, hn]
      · intro j hj
        simp only [St.set]
        by_cases hji : j = i
        · subst hji; rw [upd_same]
          intro g b' w' ws' hg; simp at hg
        · rw [upd_ne _ _ _ hji]
          intro g b' w' ws' hg hn'
          have hb' := h.buf j hj g b' w' ws' hg hn'
          by_cases hc : w'.chunk = w.chunk
          · exfalso
            have hgj : g = s.gen := (h.gen j hj g (.inr (.inl ⟨_, hg⟩))).1
            have hgi : g0 = s.gen := (h.gen i hi g0 (.inr (.inl ⟨_, hst⟩))).1
            have : Holds (s.procs j) g0 w.chunk := ⟨.inr (.inl ⟨b', by rw [hg, hgj, hgi]⟩), w', ws', hn', hc⟩
            exact hji (exclusive h hj hi this hold)
          · rw [upd_ne _ _ _ hc]; exact hb'
      · intro j hj
        simp only [St.set]
        by_cases hji : j = i
        · subst hji; rw [upd_same]
          intro w' hw'
          apply h.sub j hj
          simp only [left, hn, List.tail_cons] at hw'
          simp only [left, hst, hn, List.cons_append]
          exact List.mem_cons_of_mem _ hw'
        · rw [upd_ne _ _ _ hji]; exact h.sub j hj
      · intro j hj c x ht
        simp only [St.set]
        by_cases hji : j = i
        · subst hji; rw [upd_same, ← h.val j hj c x ht]
          simp [left, hst, hn, alone]
        · rw [upd_ne _ _ _ hji, ← h.val j hj c x ht]
          apply alone_congr
          apply apply_untouched
          intro hh
          exact hap i hi j hj (Ne.symm hji) c x ⟨⟨w, hw, hh⟩, ht⟩
      · intro c x hno
        rw [← h.rest c x hno]
        apply apply_untouched
        intro hh
        exact hno i hi ⟨w, hw, hh⟩
  | written g0 =>
    simp only [hst] at hs
    cases hn : (s.procs i).now with
    | nil => simp [hn] at hs
    | cons w ws =>
      simp only [hn] at hs
      injection hs with hs; subst hs
      have hold : Holds (s.procs i) g0 w.chunk := ⟨.inr (.inr hst), w, ws, hn, rfl⟩
      refine keep (gen := s.gen) h hi (.inl ⟨?_, ?_⟩) ?_ ?_ (.inl rfl) ?_ ?_ ?_ ?_
      · simp [Proc.passed, hst]
      · simp [Proc.arrived, hst]
      · simp [inRound, hst]
      · intro hc; simp at hc
      · intro g hg; simp at hg
      · intro g c k
        have hlk := h.locks g c k
        by_cases hk : k = i
        · subst hk
          rw [upd_same]
          have hno : ¬ Holds ({ s.procs k with stage := .ready, now := ws } : Proc κ α) g c := by simp [Holds]
          constructor
          · intro hh
            by_cases hg : g = g0
            · subst hg
              rw [upd_same] at hh
              by_cases hc : c = w.chunk
              · subst hc; rw [upd_same] at hh; simp at hh
              · rw [upd_ne _ _ _ hc] at hh
                obtain ⟨_, _, w', ws', h1, h2⟩ := hlk.1 hh
                rw [hn] at h1
                injection h1 with h1 _; subst h1
                exact absurd h2.symm hc
            · rw [upd_ne _ _ _ hg] at hh
              obtain ⟨_, h1, _⟩ := hlk.1 hh
              rw [hst] at h1
              simp at h1
              exact absurd h1.symm hg
          · intro hh; exact absurd hh.2 hno
        · rw [upd_ne s.procs _ _ hk]
          by_cases hg : g = g0
          · subst hg
            rw [upd_same]
            by_cases hc : c = w.chunk
            · subst hc; rw [upd_same]
              constructor
              · intro hh; simp at hh
              · rintro ⟨hkn, hh⟩; exact absurd (exclusive h hkn hi hh hold) hk
            · rw [upd_ne _ _ _ hc, hlk]
          · rw [upd_ne _ _ _ hg, hlk]
      · intro g b w ws' hg; simp at hg
      · simp [left, hst, hn]
  | finish =>
    simp only [hst] at hs
    split at hs
    · rename_i hpass
      split at hs
      · rename_i h0
        injection hs with hs; subst hs
        refine keep (gen := s.gen) h hi (.inr ⟨?_, ?_, hpass⟩) ?_ ?_ (.inl rfl) ?_ (locks_keep h.locks ?_) ?_ ?_
        · simp [Proc.passed, hst]
        · simp [Proc.arrived, hst]
        · simp [inRound, hst]
        · intro _; exact h0
        · intro g hg; simp at hg
        · intro g c; simp [Holds, hst]
        · intro g b w ws' hg; simp at hg
        · simp [left, hst]
      · injection hs with hs; subst hs
        refine keep (gen := s.gen) h hi (.inr ⟨?_, ?_, hpass⟩) ?_ ?_ (.inl rfl) ?_ (locks_keep h.locks ?_) ?_ ?_
        · simp [Proc.passed, Proc.next, hst]; omega
        · simp [Proc.arrived, hst]
        · simp [inRound, Proc.next, hst]
        · intro hc; simp [Proc.next] at hc
        · intro g hg; simp [Proc.next] at hg
        · intro g c; simp [Holds, Proc.next, hst]
        · intro g b w ws' hg; simp [Proc.next] at hg
        · simp [left, Proc.next, hst]
    · simp at hs
  | clean =>
    simp only [hst] at hs
    injection hs with hs; subst hs
    refine keep h hi (.inl ⟨?_, ?_⟩) ?_ ?_ (.inr ?_) ?_ (locks_keep h.locks ?_) ?_ ?_
    · simp [Proc.passed, Proc.next, hst]; omega
    · simp [Proc.arrived, hst]
    · simp [inRound, Proc.next, hst]
    · intro hc; simp [Proc.next] at hc
    · intro j hj hji g hg
      have hp : (s.procs i).passed = 2 * (s.procs i).round + 2 := by simp [Proc.passed, hst]
      have hna : (s.procs i).arrived = false := by simp [Proc.arrived, hst]
      have hpj : (s.procs j).passed = 2 * (s.procs j).round + 1 := by
        rcases hg with hg | ⟨b, hg⟩ | hg <;> simp [Proc.passed, hg]
      have hnj : (s.procs j).arrived = false := by
        rcases hg with hg | ⟨b, hg⟩ | hg <;> simp [Proc.arrived, hg]
      have h1 := h.sync i hi j hj
      have h2 := h.sync j hj i hi
      simp only [hna, hnj, Bool.false_eq_true, and_false, or_false] at h1 h2
      omega
    · intro g hg; simp [Proc.next] at hg
    · intro g c; simp [Holds, Proc.next, hst]
    · intro g b w ws' hg; simp [Proc.next] at hg
    · simp [left, Proc.next, hst]

theorem run_inv {n R : Nat} {prog : Nat → List (List (Write κ α))} {init : κ → Nat → α} (hap : Apart n prog) (is : List Nat) :
    ∀ s : St κ α, Inv n R prog init s → Inv n R prog init (run n s is) := by
  induction is with
  | nil => intro s h; exact h
  | cons i is ih =>
    intro s h
    simp only [run]
    by_cases hi : i < n
    · simp only [hi, if_true]
      cases hs : step n s i with
      | none => exact ih s h
      | some s' => exact ih s' (step_inv hap h hi hs)
    · simp only [hi, if_false]; exact ih s h

/-! ### The lock files -/

theorem files_step {n R : Nat} {prog : Nat → List (List (Write κ α))} {init : κ → Nat → α} {s s' : St κ α} {i : Nat} (h : Inv n R prog init s)
    (hi : i < n) (hf : (s.procs 0).finished = true → s.files = []) (hs : step n s i = some s') : (s'.procs 0).finished = true → s'.files = [] := by
  by_cases h0 : i = 0
  · subst h0
    unfold step at hs
    dsimp only at hs
    cases hst : (s.procs 0).stage with
    | start =>
      simp only [hst] at hs
      cases hl : (s.procs 0).later with
      | nil => simp [hl] at hs
      | cons ws rest =>
        simp only [hl] at hs
        split at hs
        · injection hs with hs; subst hs
          intro hh; simp [St.set, upd_same, Proc.finished] at hh
        · simp at hs
    | ready =>
      simp only [hst] at hs
      cases hn : (s.procs 0).now with
      | nil =>
        simp only [hn] at hs
        injection hs with hs; subst hs
        intro hh; simp [St.set, upd_same, Proc.finished] at hh
      | cons w ws =>
        simp only [hn] at hs
        cases hlk : s.locks s.gen w.chunk with
        | some k => simp [hlk] at hs
        | none =>
          simp only [hlk] at hs
          injection hs with hs; subst hs
          intro hh; simp [St.set, upd_same, Proc.finished] at hh
    | locked g =>
      simp only [hst] at hs
      cases hn : (s.procs 0).now with
      | nil => simp [hn] at hs
      | cons w ws =>
        simp only [hn] at hs
        injection hs with hs; subst hs
        intro hh; simp [St.set, upd_same, Proc.finished] at hh
    | holding g b =>
      simp only [hst] at hs
      cases hn : (s.procs 0).now with
      | nil => simp [hn] at hs
      | cons w ws =>
        simp only [hn] at hs
        injection hs with hs; subst hs
        intro hh; simp [St.set, upd_same, Proc.finished] at hh
    | written g =>
      simp only [hst] at hs
      cases hn : (s.procs 0).now with
      | nil => simp [hn] at hs
      | cons w ws =>
        simp only [hn] at hs
        injection hs with hs; subst hs
        intro hh; simp [St.set, upd_same, Proc.finished] at hh
    | finish =>
      simp only [hst] at hs
      split at hs
      · simp only [if_true] at hs
        injection hs with hs; subst hs
        intro hh; simp [St.set, upd_same, Proc.finished] at hh
      · simp at hs
    | clean =>
      simp only [hst] at hs
      injection hs with hs; subst hs
      intro _; rfl
  · -- another process that makes a lock file is in a round that process 0 has not been through
    have hsame : s'.procs 0 = s.procs 0 ∧ (s'.files = s.files ∨ s'.files = [] ∨ (s.procs i).stage = .ready) := by
      unfold step at hs
      dsimp only at hs
      cases hst : (s.procs i).stage with
      | start =>
        simp only [hst] at hs
        cases hl : (s.procs i).later with
        | nil => simp [hl] at hs
        | cons ws rest =>
          simp only [hl] at hs
          split at hs
          · injection hs with hs; subst hs
            exact ⟨upd_ne _ _ _ (Ne.symm h0), .inl rfl⟩
          · simp at hs
      | ready =>
        simp only [hst] at hs
        cases hn : (s.procs i).now with
        | nil =>
          simp only [hn] at hs
          injection hs with hs; subst hs
          exact ⟨upd_ne _ _ _ (Ne.symm h0), .inl rfl⟩
        | cons w ws =>
          simp only [hn] at hs
          cases hlk : s.locks s.gen w.chunk with
          | some k => simp [hlk] at hs
          | none =>
            simp only [hlk] at hs
            injection hs with hs; subst hs
            exact ⟨upd_ne _ _ _ (Ne.symm h0), .inr (.inr rfl)⟩
      | locked g =>
        simp only [hst] at hs
        cases hn : (s.procs i).now with
        | nil => simp [hn] at hs
        | cons w ws =>
          simp only [hn] at hs
          injection hs with hs; subst hs
          exact ⟨upd_ne _ _ _ (Ne.symm h0), .inl rfl⟩
      | holding g b =>
        simp only [hst] at hs
        cases hn : (s.procs i).now with
        | nil => simp [hn] at hs
        | cons w ws =>
          simp only [hn] at hs
          injection hs with hs; subst hs
          exact ⟨upd_ne _ _ _ (Ne.symm h0), .inl rfl⟩
      | written g =>
        simp only [hst] at hs
        cases hn : (s.procs i).now with
        | nil => simp [hn] at hs
        | cons w ws =>
          simp only [hn] at hs
          injection hs with hs; subst hs
          exact ⟨upd_ne _ _ _ (Ne.symm h0), .inl rfl⟩
      | finish =>
        simp only [hst] at hs
        split at hs
        · injection hs with hs; subst hs
          exact ⟨upd_ne _ _ _ (Ne.symm h0), .inl rfl⟩
        · simp at hs
      | clean => exact absurd (h.cleaner i hst) h0
    intro hfin
    rw [hsame.1] at hfin
    rcases hsame.2 with h1 | h1 | h1
    · rw [h1]; exact hf hfin
    · exact h1
    · exfalso
      have hs0 : (s.procs 0).stage = .start := by
        unfold Proc.finished at hfin
        cases hc : (s.procs 0).stage with
        | start => rfl
        | _ => simp [hc] at hfin
      have hl0 : (s.procs 0).later = [] := by simpa [Proc.finished, hs0] using hfin
      have r0 := h.rounds 0 (by omega)
      have ri := h.rounds i hi
      have hsync := h.sync 0 (by omega) i hi
      simp only [inRound, hs0, hl0, List.length_nil] at r0
      simp only [inRound, h1] at ri
      have hna : (s.procs i).arrived = false := by simp [Proc.arrived, h1]
      simp only [hna, Bool.false_eq_true, and_false, or_false, Proc.passed, hs0, h1] at hsync
      omega

theorem files_run {n R : Nat} {prog : Nat → List (List (Write κ α))} {init : κ → Nat → α} (hap : Apart n prog) (is : List Nat) :
    ∀ s : St κ α, Inv n R prog init s → ((s.procs 0).finished = true → s.files = []) →
      ((run n s is).procs 0).finished = true → (run n s is).files = [] := by
  induction is with
  | nil => intro s _ hf; exact hf
  | cons i is ih =>
    intro s h hf
    simp only [run]
    by_cases hi : i < n
    · simp only [hi, if_true]
      cases hs : step n s i with
      | none => exact ih s h hf
      | some s' => exact ih s' (step_inv hap h hi hs) (files_step h hi hf hs)
    · simp only [hi, if_false]; exact ih s h hf

/-! ### Nobody waits for ever -/

theorem progress {n R : Nat} {prog : Nat → List (List (Write κ α))} {init : κ → Nat → α} {s : St κ α} (h : Inv n R prog init s)
    (hf : ∃ i < n, (s.procs i).finished = false) : ∃ i < n, (step n s i).isSome = true := by
  -- a process that has a lock, or is about to remove the lock files, or has written all, can move
  by_cases hb : ∃ i < n, ∃ g, ((s.procs i).stage = .locked g ∨ (∃ b, (s.procs i).stage = .holding g b) ∨ (s.procs i).stage = .written g)
  · obtain ⟨i, hi, g, hg⟩ := hb
    refine ⟨i, hi, ?_⟩
    have hn := (h.gen i hi g hg).2
    cases hn' : (s.procs i).now with
    | nil => exact absurd hn' hn
    | cons w ws => rcases hg with hg | ⟨b, hg⟩ | hg <;> simp [step, hg, hn']
  · by_cases hr : ∃ i < n, (s.procs i).stage = .ready ∨ (s.procs i).stage = .clean
    · obtain ⟨i, hi, hr | hr⟩ := hr
      · refine ⟨i, hi, ?_⟩
        cases hn : (s.procs i).now with
        | nil => simp [step, hr, hn]
        | cons w ws =>
          cases hl : s.locks s.gen w.chunk with
          | none => simp [step, hr, hn, hl]
          | some k =>
            obtain ⟨hk, hh, _⟩ := (h.locks _ _ _).1 hl
            exact absurd ⟨k, hk, _, hh⟩ hb
      · exact ⟨i, hi, by simp [step, hr]⟩
    · -- all are at a barrier or through: one that has passed fewest can pass
      have hall : ∀ i < n, (s.procs i).stage = .start ∨ (s.procs i).stage = .finish := by
        intro i hi
        cases hs : (s.procs i).stage with
        | start => exact .inl rfl
        | finish => exact .inr rfl
        | ready => exact absurd ⟨i, hi, .inl hs⟩ hr
        | clean => exact absurd ⟨i, hi, .inr hs⟩ hr
        | locked g => exact absurd ⟨i, hi, g, .inl hs⟩ hb
        | holding g b => exact absurd ⟨i, hi, g, .inr (.inl ⟨b, hs⟩)⟩ hb
        | written g => exact absurd ⟨i, hi, g, .inr (.inr hs)⟩ hb
      have hmin : ∀ m, (∃ i < n, (s.procs i).finished = false ∧ (s.procs i).passed ≤ m) →
          ∃ i < n, (s.procs i).finished = false ∧ ∀ j < n, (s.procs j).finished = false → (s.procs i).passed ≤ (s.procs j).passed := by
        intro m
        induction m with
        | zero => rintro ⟨i, hi, h1, h2⟩; exact ⟨i, hi, h1, fun j _ _ => by omega⟩
        | succ m ih =>
          rintro ⟨i, hi, h1, h2⟩
          by_cases hm : ∃ i < n, (s.procs i).finished = false ∧ (s.procs i).passed ≤ m
          · exact ih hm
          · refine ⟨i, hi, h1, fun j hj hjf => ?_⟩
            have : ¬ (s.procs j).passed ≤ m := fun hle => hm ⟨j, hj, hjf, hle⟩
            omega
      obtain ⟨i0, hi0, hf0⟩ := hf
      obtain ⟨i, hi, hfi, hle⟩ := hmin _ ⟨i0, hi0, hf0, Nat.le_refl _⟩
      have hpass : passes n s i = true := by
        rw [passes_iff]
        intro j hj
        by_cases hfj : (s.procs j).finished = true
        · left
          have h1 := h.rounds i hi
          have h2 := h.rounds j hj
          have hjs : (s.procs j).stage = .start := by
            rcases hall j hj with h | h
            · exact h
            · simp [Proc.finished, h] at hfj
          have hjl : (s.procs j).later = [] := by simpa [Proc.finished, hjs] using hfj
          simp only [inRound, hjs, hjl, List.length_nil] at h2
          rcases hall i hi with h | h
          · have : (s.procs i).later ≠ [] := by intro hc; simp [Proc.finished, h, hc] at hfi
            have : 0 < (s.procs i).later.length := List.length_pos_iff.mpr this
            simp only [inRound, h] at h1
            simp only [Proc.passed, h, hjs]; omega
          · simp only [inRound, h] at h1
            simp only [Proc.passed, h, hjs]; omega
        · have hfj : (s.procs j).finished = false := by simpa using hfj
          have := hle j hj hfj
          have harr : (s.procs j).arrived = true := by
            rcases hall j hj with h | h
            · simp only [Proc.finished, h] at hfj
              simp [Proc.arrived, h, hfj]
            · simp [Proc.arrived, h]
          rcases Nat.lt_or_ge (s.procs i).passed (s.procs j).passed with h | h
          · exact .inl h
          · exact .inr ⟨by omega, harr⟩
      refine ⟨i, hi, ?_⟩
      rcases hall i hi with hs | hs
      · cases hl : (s.procs i).later with
        | nil => simp [Proc.finished, hs, hl] at hfi
        | cons ws rest => simp [step, hs, hl, hpass]
      · by_cases h0 : i = 0
        · subst h0; simp [step, hs, hpass]
        · simp [step, hs, hpass, h0]

/-- Steps that the rounds to come take at most. -/
def laterCost : List (List (Write κ α)) → Nat
  | [] => 0
  | ws :: rest => 4 * ws.length + 4 + laterCost rest

def cost (p : Proc κ α) : Nat := laterCost p.later +
  match p.stage with
  | .start => 0
  | .ready => 4 * p.now.length + 3
  | .locked _ => 4 * p.now.length + 2
  | .holding _ _ => 4 * p.now.length + 1
  | .written _ => 4 * p.now.length
  | .finish => 2
  | .clean => 1

def tot (f : Nat → Nat) : Nat → Nat
  | 0 => 0
  | n + 1 => tot f n + f n

theorem tot_congr (f g : Nat → Nat) (n : Nat) (h : ∀ i < n, f i = g i) : tot f n = tot g n := by
  induction n with
  | zero => rfl
  | succ n ih => simp only [tot]; rw [ih (fun i hi => h i (by omega)), h n (by omega)]

theorem tot_lt (f g : Nat → Nat) (n i : Nat) (hi : i < n) (h1 : g i < f i) (h2 : ∀ j, j ≠ i → g j = f j) : tot g n < tot f n := by
  induction n with
  | zero => omega
  | succ n ih =>
    simp only [tot]
    by_cases hin : i = n
    · subst hin
      rw [tot_congr g f i (fun j hj => h2 j (by omega))]; omega
    · have := ih (by omega)
      rw [h2 n (fun h => hin h.symm)]; omega

theorem step_procs {n : Nat} {s s' : St κ α} {i : Nat} (hs : step n s i = some s') :
    ∃ p, s'.procs = upd s.procs i p ∧ cost p < cost (s.procs i) := by
  unfold step at hs
  dsimp only at hs
  cases hst : (s.procs i).stage with
  | start =>
    simp only [hst] at hs
    cases hl : (s.procs i).later with
    | nil => simp [hl] at hs
    | cons ws rest =>
      simp only [hl] at hs
      split at hs
      · injection hs with hs; subst hs
        exact ⟨_, rfl, by simp [cost, hst, hl, laterCost]; omega⟩
      · simp at hs
  | ready =>
    simp only [hst] at hs
    cases hn : (s.procs i).now with
    | nil =>
      simp only [hn] at hs
      injection hs with hs; subst hs
      exact ⟨_, rfl, by simp [cost, hst, hn]⟩
    | cons w ws =>
      simp only [hn] at hs
      cases hlk : s.locks s.gen w.chunk with
      | some k => simp [hlk] at hs
      | none =>
        simp only [hlk] at hs
        injection hs with hs; subst hs
        exact ⟨_, rfl, by simp [cost, hst, hn]⟩
  | locked g =>
    simp only [hst] at hs
    cases hn : (s.procs i).now with
    | nil => simp [hn] at hs
    | cons w ws =>
      simp only [hn] at hs
      injection hs with hs; subst hs
      exact ⟨_, rfl, by simp [cost, hst, hn]⟩
  | holding g b =>
    simp only [hst] at hs
    cases hn : (s.procs i).now with
    | nil => simp [hn] at hs
    | cons w ws =>
      simp only [hn] at hs
      injection hs with hs; subst hs
      exact ⟨_, rfl, by simp [cost, hst, hn]⟩
  | written g =>
    simp only [hst] at hs
    cases hn : (s.procs i).now with
    | nil => simp [hn] at hs
    | cons w ws =>
      simp only [hn] at hs
      injection hs with hs; subst hs
      exact ⟨_, rfl, by simp [cost, hst, hn]; omega⟩
  | finish =>
    simp only [hst] at hs
    split at hs
    · split at hs <;> (injection hs with hs; subst hs)
      · exact ⟨_, rfl, by simp [cost, hst]⟩
      · exact ⟨_, rfl, by simp [cost, Proc.next, hst]⟩
    · simp at hs
  | clean =>
    simp only [hst] at hs
    injection hs with hs; subst hs
    exact ⟨_, rfl, by simp [cost, Proc.next, hst]⟩

theorem step_cost {n : Nat} {s s' : St κ α} {i : Nat} (hi : i < n) (hs : step n s i = some s') :
    tot (fun j => cost (s'.procs j)) n < tot (fun j => cost (s.procs j)) n := by
  obtain ⟨p, hp, hlt⟩ := step_procs hs
  apply tot_lt _ _ n i hi
  · rw [hp, upd_same]; exact hlt
  · intro j hj; rw [hp, upd_ne _ _ _ hj]

/-- Steps that are done in this order of turns. -/
def moves (n : Nat) (s : St κ α) : List Nat → Nat
  | [] => 0
  | i :: is =>
    match (if i < n then step n s i else none) with
    | none => moves n s is
    | some s' => moves n s' is + 1

theorem moves_le {n : Nat} (is : List Nat) : ∀ s : St κ α, moves n s is ≤ tot (fun j => cost (s.procs j)) n := by
  induction is with
  | nil => intro s; simp [moves]
  | cons i is ih =>
    intro s
    simp only [moves]
    by_cases hi : i < n
    · simp only [hi, if_true]
      cases hs : step n s i with
      | none => exact ih s
      | some s' => have := ih s'; have := step_cost hi hs; simp only; omega
    · simp only [hi, if_false]; exact ih s

theorem run_append (n : Nat) (is js : List Nat) : ∀ s : St κ α, run n s (is ++ js) = run n (run n s is) js := by
  induction is with
  | nil => intro s; rfl
  | cons i is ih =>
    intro s
    simp only [List.cons_append, run]
    split <;> exact ih _

theorem can_end {n R : Nat} {prog : Nat → List (List (Write κ α))} {init : κ → Nat → α} (hap : Apart n prog) (m : Nat) :
    ∀ s : St κ α, Inv n R prog init s → tot (fun j => cost (s.procs j)) n ≤ m → ∃ is, ∀ i < n, ((run n s is).procs i).finished = true := by
  induction m with
  | zero =>
    intro s h hm
    by_cases hf : ∃ i < n, (s.procs i).finished = false
    · obtain ⟨i, hi, hs⟩ := progress h hf
      obtain ⟨s', hs'⟩ := Option.isSome_iff_exists.1 hs
      have := step_cost hi hs'; omega
    · exact ⟨[], fun i hi => by
        cases hc : (s.procs i).finished with
        | true => exact hc
        | false => exact absurd ⟨i, hi, hc⟩ hf⟩
  | succ m ih =>
    intro s h hm
    by_cases hf : ∃ i < n, (s.procs i).finished = false
    · obtain ⟨i, hi, hs⟩ := progress h hf
      obtain ⟨s', hs'⟩ := Option.isSome_iff_exists.1 hs
      have := step_cost hi hs'
      obtain ⟨is, his⟩ := ih s' (step_inv hap h hi hs') (by omega)
      exact ⟨i :: is, by simpa [run, hi, hs'] using his⟩
    · exact ⟨[], fun i hi => by
        cases hc : (s.procs i).finished with
        | true => exact hc
        | false => exact absurd ⟨i, hi, hc⟩ hf⟩

/-! ### What one process alone leaves -/

theorem alone_untouched (ws : List (Write κ α)) (c : κ) (x : Nat) : ∀ s : κ → Nat → α, ¬ touches ws c x → alone s ws c x = s c x := by
  induction ws with
  | nil => intro s _; rfl
  | cons w ws ih =>
    intro s h
    have h1 : ¬ touches ws c x := fun ⟨w', hw', h2⟩ => h ⟨w', List.mem_cons_of_mem _ hw', h2⟩
    rw [alone, ih _ h1]
    exact apply_untouched s w c x fun h2 => h ⟨w, List.mem_cons_self .., h2⟩

theorem alone_append (ws vs : List (Write κ α)) : ∀ s : κ → Nat → α, alone s (ws ++ vs) = alone (alone s ws) vs := by
  induction ws with
  | nil => intro s; rfl
  | cons w ws ih => intro s; simp only [List.cons_append, alone]; exact ih _

/-- The last write to a cell decides. -/
theorem alone_last (s : κ → Nat → α) (pre post : List (Write κ α)) (w : Write κ α) (x : Nat) (v : α) (hv : w.cells x = some v)
    (hp : ¬ touches post w.chunk x) : alone s (pre ++ w :: post) w.chunk x = v := by
  rw [alone_append, alone, alone_untouched _ _ _ _ hp, upd_same, Write.apply, hv]

theorem finished_left {p : Proc κ α} (h : p.finished = true) : left p = [] := by
  unfold Proc.finished at h
  unfold left
  cases hs : p.stage with
  | start => simp only [hs] at h ⊢; simp at h; simp [h]
  | _ => simp [hs] at h

/-! ### The rows of an array -/

theorem rowWrites_touch (ck : Nat) (v : Nat → α) (lo hi k x : Nat) (h : touches (rowWrites ck v lo hi) k x) :
    x < ck ∧ lo ≤ k * ck + x ∧ k * ck + x < hi := by
  obtain ⟨w, hw, hk, hx⟩ := h
  simp only [rowWrites, List.mem_map] at hw
  obtain ⟨k', _, rfl⟩ := hw
  simp only [rowWrite] at hk hx
  subst hk
  split at hx
  · assumption
  · simp at hx

theorem rowWrites_mem (ck : Nat) (hck : 0 < ck) (v : Nat → α) (lo hi g : Nat) (h1 : lo ≤ g) (h2 : g < hi) :
    ∃ pre w post, rowWrites ck v lo hi = pre ++ w :: post ∧ w.chunk = g / ck ∧ w.cells (g % ck) = some (v g) ∧ ¬ touches post (g / ck) (g % ck) := by
  have hg : g / ck * ck + g % ck = g := by rw [Nat.mul_comm]; exact Nat.div_add_mod g ck
  have hm := Nat.mod_lt g hck
  have hmem : g / ck ∈ (List.range ((hi + ck - 1) / ck)).filter fun k => decide (lo < hi ∧ lo < (k + 1) * ck) := by
    rw [List.mem_filter, List.mem_range]
    constructor
    · have : g / ck + 1 ≤ (hi + ck - 1) / ck := by
        rw [Nat.le_div_iff_mul_le hck, Nat.add_mul, Nat.one_mul]; omega
      omega
    · rw [decide_eq_true_iff, Nat.add_mul, Nat.one_mul]; constructor <;> omega
  have hnd : ((List.range ((hi + ck - 1) / ck)).filter fun k => decide (lo < hi ∧ lo < (k + 1) * ck)).Nodup := List.nodup_range.filter _
  obtain ⟨pre, post, he⟩ := List.append_of_mem hmem
  rw [he] at hnd
  refine ⟨pre.map (rowWrite ck v lo hi), rowWrite ck v lo hi (g / ck), post.map (rowWrite ck v lo hi), ?_, ?_, ?_, ?_⟩
  · unfold rowWrites
    rw [he, List.map_append, List.map_cons]
  · rfl
  · simp [rowWrite, hg, hm, h1, h2]
  · rintro ⟨w, hw, hk, _⟩
    rw [List.mem_map] at hw
    obtain ⟨k', hk', rfl⟩ := hw
    simp only [rowWrite] at hk
    subst hk
    rw [List.nodup_append] at hnd
    exact (List.nodup_cons.1 hnd.2.1).1 hk'

theorem arrayProg_eq (N size ck : Nat) (v : Nat → α) (r : Nat) (h : r < size) :
    arrayProg N size ck v r = [rowWrites ck v (Split.blk N size r) (Split.blk N size (r + 1))] := by
  rw [arrayProg, Split.splitLocal_ok N size r h]

theorem array_apart (N size ck : Nat) (v : Nat → α) : Apart size (arrayProg N size ck v) := by
  intro i hi j hj hij c x ⟨h1, h2⟩
  rw [arrayProg_eq N size ck v i hi] at h1
  rw [arrayProg_eq N size ck v j hj] at h2
  simp only [List.flatten_cons, List.flatten_nil, List.append_nil] at h1 h2
  obtain ⟨_, a1, b1⟩ := rowWrites_touch _ _ _ _ _ _ h1
  obtain ⟨_, a2, b2⟩ := rowWrites_touch _ _ _ _ _ _ h2
  exact hij (Split.blk_owner_unique N size _ _ _ a2 b2 a1 b1)

end Verif.Chunks
