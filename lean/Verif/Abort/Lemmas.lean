import Verif.Abort.Spec

namespace Verif.Abort

theorem upd_same (s : Job) (i : Nat) (p : Proc) : upd s i p i = p := by simp [upd]

theorem upd_ne (s : Job) {i j : Nat} (p : Proc) (h : j ≠ i) : upd s i p j = s j := by simp [upd, h]

theorem collReady_iff (n : Nat) (s : Job) (i : Nat) : collReady n s i = true ↔
    ∀ j < n, (s i).passed < (s j).passed ∨ ((s j).passed = (s i).passed ∧ (s j).inColl = true) := by
  simp [collReady]

theorem finalReady_iff (n : Nat) (s : Job) : finalReady n s = true ↔ ∀ j < n, (s j).inFinalize = true := by
  simp [finalReady]

/-- What holds of a process as long as the job has not been aborted. -/
def Ok (handler : Bool) (prog : List Op) (p : Proc) : Prop :=
  match p.pos with
  | .run ops => calls ops + p.passed = calls prog ∧ failure ops = failure prog
  | .hook => handler = true ∧ ∃ e, failure prog = some e ∧ clickMain e = .raised
  | .finalize c => p.passed = calls prog ∧
      match failure prog with
      | none => c = 0
      | some e => clickMain e = .exit c ∨ (clickMain e = .raised ∧ handler = false ∧ c = 1)
  | .ended c => p.passed = calls prog ∧
      match failure prog with
      | none => c = 0
      | some e => clickMain e = .exit c ∨ (clickMain e = .raised ∧ handler = false ∧ c = 1)

/-- The job has not been aborted; or it has, by a process whose exception reached the handler. -/
def Inv (handler : Bool) (n : Nat) (prog : Nat → List Op) (s : Job) : Prop :=
  ((∀ i < n, Ok handler (prog i) (s i)) ∧ ((∃ i < n, ∃ c, (s i).pos = .ended c) → ∀ j < n, (s j).inFinalize = true)) ∨
  ((∀ i < n, (s i).pos = .ended 1) ∧ handler = true ∧ ∃ i < n, ∃ e, failure (prog i) = some e ∧ clickMain e = .raised)

theorem start_inv (handler : Bool) (n : Nat) (prog : Nat → List Op) : Inv handler n prog (start prog) := by
  refine .inl ⟨fun i _ => ?_, ?_⟩
  · simp [Ok, start]
  · rintro ⟨i, _, c, h⟩; simp [start] at h

theorem ok_upd {handler : Bool} {n : Nat} {prog : Nat → List Op} {s : Job} {i : Nat} {p : Proc} (h : ∀ j < n, Ok handler (prog j) (s j)) (hp : Ok handler (prog i) p) :
    ∀ j < n, Ok handler (prog j) (upd s i p j) := by
  intro j hj
  by_cases hji : j = i
  · subst hji; rw [upd_same]; exact hp
  · rw [upd_ne _ _ hji]; exact h j hj

theorem noEnd_upd {n : Nat} {s : Job} {i : Nat} {p : Proc} (hi : i < n) (h : (∃ k < n, ∃ c, (s k).pos = .ended c) → ∀ j < n, (s j).inFinalize = true)
    (hs : (s i).inFinalize = false) (hp : ∀ c, p.pos ≠ .ended c) :
    (∃ k < n, ∃ c, ((upd s i p) k).pos = .ended c) → ∀ j < n, ((upd s i p) j).inFinalize = true := by
  rintro ⟨k, hk, c, he⟩
  exfalso
  by_cases hki : k = i
  · subst hki; rw [upd_same] at he; exact hp c he
  · rw [upd_ne _ _ hki] at he
    rw [h ⟨k, hk, c, he⟩ i hi] at hs
    cases hs

theorem step_inv {handler : Bool} {n : Nat} {prog : Nat → List Op} {s s' : Job} {i : Nat} (h : Inv handler n prog s) (hi : i < n)
    (hs : step handler n s i = some s') : Inv handler n prog s' := by
  rcases h with ⟨h1, h2⟩ | ⟨h1, h2⟩
  · have hok := h1 i hi
    unfold step at hs
    cases hp : (s i).pos with
    | run ops =>
      have hnf : (s i).inFinalize = false := by simp [Proc.inFinalize, hp]
      simp only [Ok, hp] at hok
      cases ops with
      | nil =>
        simp only [hp] at hs
        injection hs with hs; subst hs
        refine .inl ⟨ok_upd h1 ?_, noEnd_upd hi h2 hnf (by simp)⟩
        obtain ⟨a, b⟩ := hok
        simp only [calls, failure] at a b
        simp only [Ok, ← b]
        exact ⟨by omega, trivial⟩
      | cons o ops =>
        cases o with
        | work =>
          simp only [hp] at hs
          injection hs with hs; subst hs
          exact .inl ⟨ok_upd h1 (by simpa [Ok, calls, failure] using hok), noEnd_upd hi h2 hnf (by simp)⟩
        | coll =>
          simp only [hp] at hs
          split at hs
          · injection hs with hs; subst hs
            refine .inl ⟨ok_upd h1 ?_, noEnd_upd hi h2 hnf (by simp)⟩
            simp only [calls, failure] at hok
            simp only [Ok]
            exact ⟨by omega, hok.2⟩
          · cases hs
        | fail e =>
          simp only [hp] at hs
          simp only [calls, failure] at hok
          cases hc : clickMain e with
          | exit c =>
            simp only [hc] at hs
            injection hs with hs; subst hs
            refine .inl ⟨ok_upd h1 ?_, noEnd_upd hi h2 hnf (by simp)⟩
            simp only [Ok, ← hok.2]
            exact ⟨by omega, .inl hc⟩
          | raised =>
            simp only [hc] at hs
            cases handler with
            | true =>
              simp only [if_true] at hs
              injection hs with hs; subst hs
              exact .inl ⟨ok_upd h1 (by simp only [Ok]; exact ⟨trivial, e, hok.2.symm, hc⟩), noEnd_upd hi h2 hnf (by simp)⟩
            | false =>
              simp only [Bool.false_eq_true, if_false] at hs
              injection hs with hs; subst hs
              refine .inl ⟨ok_upd h1 ?_, noEnd_upd hi h2 hnf (by simp)⟩
              simp only [Ok, ← hok.2]
              exact ⟨by omega, by simp [hc]⟩
    | hook =>
      simp only [hp] at hs
      injection hs with hs; subst hs
      simp only [Ok, hp] at hok
      exact .inr ⟨fun _ _ => rfl, hok.1, i, hi, hok.2⟩
    | finalize c =>
      simp only [hp] at hs
      split at hs
      · rename_i hf
        rw [finalReady_iff] at hf
        injection hs with hs; subst hs
        refine .inl ⟨ok_upd h1 (by simpa [Ok, hp] using hok), fun _ j hj => ?_⟩
        by_cases hji : j = i
        · subst hji; rw [upd_same]; rfl
        · rw [upd_ne _ _ hji]; exact hf j hj
      · cases hs
    | ended c => simp [hp] at hs
  · simp [step, h1 i hi] at hs

theorem run_inv {handler : Bool} {n : Nat} {prog : Nat → List Op} (is : List Nat) : ∀ s : Job, Inv handler n prog s → Inv handler n prog (run handler n s is) := by
  induction is with
  | nil => intro s h; exact h
  | cons i is ih =>
    intro s h
    simp only [run]
    by_cases hi : i < n
    · simp only [hi, if_true]
      cases hs : step handler n s i with
      | none => exact ih s h
      | some s' => exact ih s' (step_inv h hi hs)
    · simp only [hi, if_false]; exact ih s h

/-- Processes that do not fail make `m` collective calls, others not more; and exceptions reach the handler. -/
def Together (n m : Nat) (prog : Nat → List Op) : Prop :=
  ∀ i < n, match failure (prog i) with
    | none => calls (prog i) = m
    | some e => calls (prog i) ≤ m ∧ clickMain e = .raised

theorem progress {n m : Nat} {prog : Nat → List Op} (ht : Together n m prog) {s : Job} (h : Inv true n prog s) (hf : ∃ i < n, ended (s i) = false) :
    ∃ i < n, (step true n s i).isSome = true := by
  rcases h with ⟨h1, h2⟩ | ⟨h1, _⟩
  · by_cases hm : ∃ i < n, (s i).inColl = false ∧ (s i).inFinalize = false
    · obtain ⟨i, hi, a, b⟩ := hm
      refine ⟨i, hi, ?_⟩
      unfold step
      cases hp : (s i).pos with
      | run ops =>
        cases ops with
        | nil => rfl
        | cons o ops =>
          cases o with
          | work => rfl
          | coll => simp [Proc.inColl, hp] at a
          | fail e => cases hc : clickMain e <;> simp [hc]
      | hook => rfl
      | finalize c => simp [Proc.inFinalize, hp] at b
      | ended c => simp [Proc.inFinalize, hp] at b
    · have hall : ∀ i < n, (s i).inColl = true ∨ (s i).inFinalize = true := by
        intro i hi
        cases ha : (s i).inColl with
        | true => exact .inl rfl
        | false =>
          cases hb : (s i).inFinalize with
          | true => exact .inr rfl
          | false => exact absurd ⟨i, hi, ha, hb⟩ hm
      by_cases hc : ∃ i < n, (s i).inColl = true
      · -- the one that has been through fewest calls
        have hmin : ∀ b, (∃ i < n, (s i).inColl = true ∧ (s i).passed ≤ b) →
            ∃ i < n, (s i).inColl = true ∧ ∀ j < n, (s j).inColl = true → (s i).passed ≤ (s j).passed := by
          intro b
          induction b with
          | zero => rintro ⟨i, hi, a, b⟩; exact ⟨i, hi, a, fun _ _ _ => by omega⟩
          | succ b ih =>
            rintro ⟨i, hi, a, c⟩
            by_cases hx : ∃ i < n, (s i).inColl = true ∧ (s i).passed ≤ b
            · exact ih hx
            · exact ⟨i, hi, a, fun j hj hjc => by
                have : ¬ (s j).passed ≤ b := fun hle => hx ⟨j, hj, hjc, hle⟩
                omega⟩
        obtain ⟨i0, hi0, hc0⟩ := hc
        obtain ⟨i, hi, hci, hle⟩ := hmin _ ⟨i0, hi0, hc0, Nat.le_refl _⟩
        have hready : collReady n s i = true := by
          rw [collReady_iff]
          intro j hj
          rcases hall j hj with hj1 | hj1
          · have := hle j hj hj1
            rcases Nat.lt_or_ge (s i).passed (s j).passed with h | h
            · exact .inl h
            · exact .inr ⟨by omega, hj1⟩
          · left
            have hi2 : (s i).passed < m := by
              have hok := h1 i hi
              have hti := ht i hi
              unfold Proc.inColl at hci
              cases hp : (s i).pos with
              | run ops =>
                cases ops with
                | nil => simp [hp] at hci
                | cons o ops =>
                  cases o with
                  | coll =>
                    simp only [Ok, hp, calls] at hok
                    cases hfl : failure (prog i) with
                    | none => simp only [hfl] at hti; omega
                    | some e => simp only [hfl] at hti; omega
                  | _ => simp [hp] at hci
              | _ => simp [hp] at hci
            have hj2 : (s j).passed = m := by
              have hok := h1 j hj
              have htj := ht j hj
              unfold Proc.inFinalize at hj1
              cases hp : (s j).pos with
              | run ops => simp [hp] at hj1
              | hook => simp [hp] at hj1
              | finalize c =>
                simp only [Ok, hp] at hok
                cases hfl : failure (prog j) with
                | none => simp only [hfl] at htj; omega
                | some e => simp only [hfl] at hok htj; simp [htj.2] at hok
              | ended c =>
                simp only [Ok, hp] at hok
                cases hfl : failure (prog j) with
                | none => simp only [hfl] at htj; omega
                | some e => simp only [hfl] at hok htj; simp [htj.2] at hok
            omega
        refine ⟨i, hi, ?_⟩
        unfold Proc.inColl at hci
        unfold step
        cases hp : (s i).pos with
        | run ops =>
          cases ops with
          | nil => simp [hp] at hci
          | cons o ops =>
            cases o with
            | coll => simp [hready]
            | _ => simp [hp] at hci
        | _ => simp [hp] at hci
      · have hfin : finalReady n s = true := by
          rw [finalReady_iff]
          intro j hj
          rcases hall j hj with h | h
          · exact absurd ⟨j, hj, h⟩ hc
          · exact h
        obtain ⟨i, hi, he⟩ := hf
        refine ⟨i, hi, ?_⟩
        rw [finalReady_iff] at hfin
        have := hfin i hi
        rw [← finalReady_iff] at hfin
        unfold Proc.inFinalize at this
        unfold step
        cases hp : (s i).pos with
        | finalize c => simp [hfin]
        | ended c => simp [ended, hp] at he
        | _ => simp [hp] at this
  · obtain ⟨i, hi, he⟩ := hf
    simp [ended, h1 i hi] at he

def cost (p : Proc) : Nat :=
  match p.pos with
  | .run ops => ops.length + 2
  | .hook => 1
  | .finalize _ => 1
  | .ended _ => 0

theorem tot_le (f g : Nat → Nat) (n : Nat) (h : ∀ i < n, g i ≤ f i) : tot g n ≤ tot f n := by
  induction n with
  | zero => exact Nat.le_refl _
  | succ n ih => simp only [tot]; have := ih (fun i hi => h i (by omega)); have := h n (by omega); omega

theorem tot_lt (f g : Nat → Nat) (n i : Nat) (hi : i < n) (h1 : g i < f i) (h2 : ∀ j < n, g j ≤ f j) : tot g n < tot f n := by
  induction n with
  | zero => omega
  | succ n ih =>
    simp only [tot]
    by_cases hin : i = n
    · subst hin
      have := tot_le f g i (fun j hj => h2 j (by omega)); omega
    · have := ih (by omega) (fun j hj => h2 j (by omega))
      have := h2 n (by omega); omega

theorem step_cost {handler : Bool} {n : Nat} {s s' : Job} {i : Nat} (hi : i < n) (hs : step handler n s i = some s') :
    tot (fun j => cost (s' j)) n < tot (fun j => cost (s j)) n := by
  have hupd : ∀ p : Proc, cost p < cost (s i) → tot (fun j => cost (upd s i p j)) n < tot (fun j => cost (s j)) n := by
    intro p hp
    apply tot_lt _ _ n i hi
    · rw [upd_same]; exact hp
    · intro j _
      by_cases hji : j = i
      · subst hji; rw [upd_same]; omega
      · rw [upd_ne _ _ hji]; exact Nat.le_refl _
  unfold step at hs
  cases hp : (s i).pos with
  | run ops =>
    cases ops with
    | nil =>
      simp only [hp] at hs
      injection hs with hs; subst hs
      exact hupd _ (by simp [cost, hp])
    | cons o ops =>
      cases o with
      | work =>
        simp only [hp] at hs
        injection hs with hs; subst hs
        exact hupd _ (by simp [cost, hp])
      | coll =>
        simp only [hp] at hs
        split at hs
        · injection hs with hs; subst hs
          exact hupd _ (by simp [cost, hp])
        · cases hs
      | fail e =>
        simp only [hp] at hs
        cases hc : clickMain e with
        | exit c =>
          simp only [hc] at hs
          injection hs with hs; subst hs
          exact hupd _ (by simp [cost, hp])
        | raised =>
          simp only [hc] at hs
          split at hs <;> (injection hs with hs; subst hs; exact hupd _ (by simp [cost, hp]))
  | hook =>
    simp only [hp] at hs
    injection hs with hs; subst hs
    apply tot_lt _ _ n i hi
    · simp [cost, hp]
    · intro j _; simp [cost]
  | finalize c =>
    simp only [hp] at hs
    split at hs
    · injection hs with hs; subst hs
      exact hupd _ (by simp [cost, hp])
    · cases hs
  | ended c => simp [hp] at hs

theorem moves_le {handler : Bool} {n : Nat} (is : List Nat) : ∀ s : Job, moves handler n s is ≤ tot (fun j => cost (s j)) n := by
  induction is with
  | nil => intro s; simp [moves]
  | cons i is ih =>
    intro s
    simp only [moves]
    by_cases hi : i < n
    · simp only [hi, if_true]
      cases hs : step handler n s i with
      | none => exact ih s
      | some s' => have := ih s'; have := step_cost hi hs; simp only; omega
    · simp only [hi, if_false]; exact ih s

theorem run_append (handler : Bool) (n : Nat) (is js : List Nat) : ∀ s : Job, run handler n s (is ++ js) = run handler n (run handler n s is) js := by
  induction is with
  | nil => intro s; rfl
  | cons i is ih =>
    intro s
    simp only [List.cons_append, run]
    split <;> exact ih _

theorem can_end {n m : Nat} {prog : Nat → List Op} (ht : Together n m prog) (b : Nat) :
    ∀ s : Job, Inv true n prog s → tot (fun j => cost (s j)) n ≤ b → ∃ is, ∀ i < n, ended (run true n s is i) = true := by
  induction b with
  | zero =>
    intro s h hb
    by_cases hf : ∃ i < n, ended (s i) = false
    · obtain ⟨i, hi, hs⟩ := progress ht h hf
      obtain ⟨s', hs'⟩ := Option.isSome_iff_exists.1 hs
      have := step_cost hi hs'; omega
    · exact ⟨[], fun i hi => by
        cases hc : ended (s i) with
        | true => exact hc
        | false => exact absurd ⟨i, hi, hc⟩ hf⟩
  | succ b ih =>
    intro s h hb
    by_cases hf : ∃ i < n, ended (s i) = false
    · obtain ⟨i, hi, hs⟩ := progress ht h hf
      obtain ⟨s', hs'⟩ := Option.isSome_iff_exists.1 hs
      have := step_cost hi hs'
      obtain ⟨is, his⟩ := ih s' (step_inv h hi hs') (by omega)
      exact ⟨i :: is, by simpa [run, hi, hs'] using his⟩
    · exact ⟨[], fun i hi => by
        cases hc : ended (s i) with
        | true => exact hc
        | false => exact absurd ⟨i, hi, hc⟩ hf⟩

/-! ### Waiting for ever -/

/-- Nobody aborts, process `a` leaves after fewer calls than process `b` makes. -/
def Stuck (handler : Bool) (n : Nat) (prog : Nat → List Op) (a b : Nat) (s : Job) : Prop :=
  (∀ i < n, Ok handler (prog i) (s i) ∧ (s i).pos ≠ .hook ∧ ∀ c, (s i).pos ≠ .ended c) ∧ (s b).passed ≤ calls (prog a)

theorem stuck_step {handler : Bool} {n : Nat} {prog : Nat → List Op} {a b : Nat} {s s' : Job} {i : Nat} (ha : a < n) (hb : b < n) (hlt : calls (prog a) < calls (prog b))
    (hq : ∀ i < n, ∀ e, failure (prog i) = some e → handler = true → clickMain e ≠ .raised) (h : Stuck handler n prog a b s) (hi : i < n)
    (hs : step handler n s i = some s') : Stuck handler n prog a b s' := by
  obtain ⟨h1, h2⟩ := h
  have hinv : Inv handler n prog s := .inl ⟨fun i hi => (h1 i hi).1, fun ⟨k, hk, c, he⟩ => absurd he ((h1 k hk).2.2 c)⟩
  have hinv' := step_inv hinv hi hs
  have hnofin : finalReady n s = false := by
    cases hc : finalReady n s with
    | false => rfl
    | true =>
      rw [finalReady_iff] at hc
      have hf := hc b hb
      have hok := (h1 b hb).1
      unfold Proc.inFinalize at hf
      cases hp : (s b).pos with
      | finalize c => simp only [Ok, hp] at hok; omega
      | ended c => exact absurd hp ((h1 b hb).2.2 c)
      | _ => simp [hp] at hf
  have hcoll : (s b).inColl = true → collReady n s b = true → (s b).passed < calls (prog a) := by
    intro _ hr
    rw [collReady_iff] at hr
    have hok := (h1 a ha).1
    have hle : (s a).passed ≤ calls (prog a) := by
      cases hp : (s a).pos with
      | run ops => simp only [Ok, hp] at hok; omega
      | hook => exact absurd hp (h1 a ha).2.1
      | finalize c => simp only [Ok, hp] at hok; omega
      | ended c => exact absurd hp ((h1 a ha).2.2 c)
    rcases hr a ha with h | ⟨h, h'⟩
    · omega
    · unfold Proc.inColl at h'
      cases hp : (s a).pos with
      | run ops =>
        cases ops with
        | nil => simp [hp] at h'
        | cons o ops =>
          cases o with
          | coll => simp only [Ok, hp, calls] at hok; omega
          | _ => simp [hp] at h'
      | _ => simp [hp] at h'
  -- the new position of process `i`
  have hnew : ∃ p, s' = upd s i p ∧ p.pos ≠ .hook ∧ (∀ c, p.pos ≠ .ended c) ∧ (i = b → p.passed ≤ calls (prog a)) := by
    have hb' : i = b → (s i).passed ≤ calls (prog a) := by intro he; rw [he]; exact h2
    unfold step at hs
    cases hp : (s i).pos with
    | run ops =>
      cases ops with
      | nil =>
        simp only [hp] at hs
        injection hs with hs
        exact ⟨_, hs.symm, by simp, by simp, hb'⟩
      | cons o ops =>
        cases o with
        | work =>
          simp only [hp] at hs
          injection hs with hs
          exact ⟨_, hs.symm, by simp, by simp, hb'⟩
        | coll =>
          simp only [hp] at hs
          split at hs
          · rename_i hr
            injection hs with hs
            refine ⟨_, hs.symm, by simp, by simp, ?_⟩
            rintro rfl
            exact hcoll (by simp [Proc.inColl, hp]) hr
          · cases hs
        | fail e =>
          simp only [hp] at hs
          have hok := (h1 i hi).1
          simp only [Ok, hp, failure] at hok
          cases hc : clickMain e with
          | exit c =>
            simp only [hc] at hs
            injection hs with hs
            exact ⟨_, hs.symm, by simp, by simp, hb'⟩
          | raised =>
            simp only [hc] at hs
            cases handler with
            | true => exact absurd hc (hq i hi e hok.2.symm rfl)
            | false =>
              simp only [Bool.false_eq_true, if_false] at hs
              injection hs with hs
              exact ⟨_, hs.symm, by simp, by simp, hb'⟩
    | hook => exact absurd hp (h1 i hi).2.1
    | finalize c => simp [hp, hnofin] at hs
    | ended c => exact absurd hp ((h1 i hi).2.2 c)
  obtain ⟨p, rfl, hp1, hp2, hp3⟩ := hnew
  have hok' : ∀ j < n, Ok handler (prog j) (upd s i p j) := by
    rcases hinv' with h | ⟨h, _⟩
    · exact h.1
    · have := h i hi
      rw [upd_same] at this
      exact absurd this (hp2 1)
  refine ⟨fun j hj => ⟨hok' j hj, ?_⟩, ?_⟩
  · by_cases hji : j = i
    · subst hji; rw [upd_same]; exact ⟨hp1, hp2⟩
    · rw [upd_ne _ _ hji]; exact (h1 j hj).2
  · by_cases hbi : b = i
    · subst hbi; rw [upd_same]; exact hp3 rfl
    · rw [upd_ne _ _ hbi]; exact h2

theorem stuck_run {handler : Bool} {n : Nat} {prog : Nat → List Op} {a b : Nat} (ha : a < n) (hb : b < n) (hlt : calls (prog a) < calls (prog b))
    (hq : ∀ i < n, ∀ e, failure (prog i) = some e → handler = true → clickMain e ≠ .raised) (is : List Nat) :
    ∀ s, Stuck handler n prog a b s → Stuck handler n prog a b (run handler n s is) := by
  induction is with
  | nil => intro s h; exact h
  | cons i is ih =>
    intro s h
    simp only [run]
    by_cases hi : i < n
    · simp only [hi, if_true]
      cases hs : step handler n s i with
      | none => exact ih s h
      | some s' => exact ih s' (stuck_step ha hb hlt hq h hi hs)
    · simp only [hi, if_false]; exact ih s h

theorem start_stuck (handler : Bool) (n : Nat) (prog : Nat → List Op) (a b : Nat) : Stuck handler n prog a b (start prog) := by
  refine ⟨fun i _ => ⟨?_, ?_, ?_⟩, ?_⟩ <;> simp [Ok, start]

end Verif.Abort
