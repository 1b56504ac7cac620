import Verif.Mpi.Redist

/-!
# C04: `redistribute` preserves the global array

`IsBlock G a P r A` (Spec): `A` is what process `r` of `P` holds of the global array `G` distributed
over axis `a`. A schedule is any list of process numbers; `run` lets the processes act in that order.
-/
namespace Verif.Mpi

variable {d : Nat} {α : Type}

/-- The call on `P` processes that hold `loc`, for a global array `G`, from axis `a` to axis `b`. -/
def call (G : Arr d α) (a b : Fin d) (P : Nat) (loc : Nat → Arr d α) : Env d α :=
  ⟨P, G.shape, a, b, loc⟩

section
variable (G : Arr d α) (a b : Fin d) (P : Nat) (loc : Nat → Arr d α)
  (hab : a ≠ b) (hloc : ∀ r, r < P → IsBlock G a P r (loc r)) (junkS junkT : Nat → Idx d → α)
include hab hloc

theorem canon_call : Canon (call G a b P loc) G := ⟨rfl, hab, hloc⟩

theorem inv_call (sched : List Nat) :
    Inv (call G a b P loc) G
      ((RState.start (call G a b P loc) (fun _ => true) junkS junkT).run (call G a b P loc) sched) :=
  inv_run _ G (canon_call G a b P loc hab hloc) _ (inv_start _ G _ _ _ hab fun _ _ => rfl) sched

/-- C04. In whatever order the processes act and whatever was in the fresh memory, no process raises,
and a process that has left the loop holds exactly its block of the new axis of the same global
array.

Partial: the two axes are given as different positions and all processes pass the memory check; see
`C04_negative_axis_violated` and `C04_memory_violated`. -/
theorem C04_redistribute_partial (sched : List Nat) (r : Nat) (hr : r < P) :
    let s := (RState.start (call G a b P loc) (fun _ => true) junkS junkT).run (call G a b P loc) sched
    s.err r = none ∧ (s.pc r = 2 * P → IsBlock G b P r (s.target r)) := by
  have h := inv_call G a b P loc hab hloc junkS junkT sched
  exact ⟨h.ok r hr, fun hp => inv_finished _ G (canon_call G a b P loc hab hloc) _ h hr hp⟩

/-- C04. The exchange cannot get stuck: in every state reached by some schedule, as long as a process
is still in the loop some process can act, and every action is one of the finitely many that remain. -/
theorem C04_progress_partial (sched : List Nat) :
    let s := (RState.start (call G a b P loc) (fun _ => true) junkS junkT).run (call G a b P loc) sched
    (¬ s.finished (call G a b P loc) → ∃ r s', s.step (call G a b P loc) r = some s') ∧
    (∀ r s', s.step (call G a b P loc) r = some s' →
      remaining (call G a b P loc) s = remaining (call G a b P loc) s' + 1) ∧
    (∃ more, (s.run (call G a b P loc) more).finished (call G a b P loc)) := by
  have h := inv_call G a b P loc hab hloc junkS junkT sched
  have hc := canon_call G a b P loc hab hloc
  refine ⟨fun hf => inv_progress _ G _ h hf, fun r s' hst => ?_, ?_⟩
  · obtain ⟨_, h1, h2, h3⟩ := inv_step _ G hc _ s' h r hst
    exact remaining_step _ _ _ r h1 h2 h3
  · obtain ⟨more, _, hm⟩ := inv_ends _ G hc _ h
    exact ⟨more, hm⟩

end

theorem isBlock_agrees {G A B : Arr d α} {a : Fin d} {P r : Nat} (hA : IsBlock G a P r A)
    (hB : IsBlock G a P r B) : Agrees A B := by
  have hs : A.shape = B.shape := by
    funext k
    by_cases h : k = a
    · subst h; rw [hA.axis, hB.axis]
    · rw [hA.others k h, hB.others k h]
  refine ⟨hs, fun i hi => ?_⟩
  rw [hA.elems i hi, hB.elems i (hs ▸ hi)]

/-- C04. Redistributing to another axis and back gives the original local arrays. `there` are the
results of the first call, taken when all processes have finished it. -/
theorem C04_round_trip_partial (G : Arr d α) (a b : Fin d) (P : Nat) (loc there : Nat → Arr d α)
    (hab : a ≠ b) (hloc : ∀ r, r < P → IsBlock G a P r (loc r))
    (junkS junkT junkS' junkT' : Nat → Idx d → α) (sched sched' : List Nat)
    (hf : ((RState.start (call G a b P loc) (fun _ => true) junkS junkT).run
      (call G a b P loc) sched).finished (call G a b P loc))
    (hthere : ∀ r, r < P → there r = ((RState.start (call G a b P loc) (fun _ => true) junkS junkT).run
      (call G a b P loc) sched).target r)
    (hf' : ((RState.start (call G b a P there) (fun _ => true) junkS' junkT').run
      (call G b a P there) sched').finished (call G b a P there)) (r : Nat) (hr : r < P) :
    Agrees (((RState.start (call G b a P there) (fun _ => true) junkS' junkT').run
      (call G b a P there) sched').target r) (loc r) := by
  have h1 : ∀ q, q < P → IsBlock G b P q (there q) := by
    intro q hq
    rw [hthere q hq]
    exact (C04_redistribute_partial G a b P loc hab hloc junkS junkT sched q hq).2 (hf q hq)
  exact isBlock_agrees
    ((C04_redistribute_partial G b a P there (Ne.symm hab) h1 junkS' junkT' sched' r hr).2 (hf' r hr))
    (hloc r hr)

/-- C04. Which calls lead to the exchange: several processes, and two axis numbers (possibly negative)
for different axes. With the same number the array itself is returned. On one process the local
array is kept, and it is the block of the new axis too. -/
theorem C04_plan_partial (P : Nat) (x y : Int) (a b : Fin d) (hx : axisOf d x = some a)
    (hy : axisOf d y = some b) (hab : a ≠ b) :
    redistPlan d P x x = .same ∧
    redistPlan d 1 x y = .wrapLocal ∧
    (P ≠ 1 → redistPlan d P x y = .exchange a b) ∧
    (∀ (G A : Arr d α), IsBlock G a 1 0 A → IsBlock G b 1 0 A) := by
  have hxy : x ≠ y := by
    rintro rfl
    rw [hx] at hy
    exact hab (Option.some.inj hy)
  refine ⟨by simp [redistPlan], by simp [redistPlan, hxy], fun hP => ?_, fun G A hA => ?_⟩
  · simp [redistPlan, hxy, hP, hx, hy]
  · have hsh : ∀ k, A.shape k = G.shape k := by
      intro k
      by_cases h : k = a
      · subst h; rw [hA.axis]; simp [blockLen, Nat.mod_one]
      · exact hA.others k h
    have h0 : ∀ n, blockStart n 1 0 = 0 := fun n => by simp [blockStart]
    refine ⟨?_, fun k _ => hsh k, fun i hi => ?_⟩
    · rw [hsh]; simp [blockLen, Nat.mod_one]
    · rw [hA.elems i hi, h0, h0]
      congr 1
      funext k
      unfold upd
      split <;> split <;> simp_all

/-- Meaning of axis numbers: `0 … d-1` from the front, `-1 … -d` from the back. -/
theorem axisOf_spec (k : Fin d) : axisOf d (k.val : Int) = some k ∧
    axisOf d ((k.val : Int) - d) = some k := by
  have := k.isLt
  constructor
  · unfold axisOf
    rw [dif_pos (by omega)]
    rfl
  · unfold axisOf
    rw [dif_neg (by omega), dif_pos (by omega)]
    congr 1
    apply Fin.ext
    show ((k.val : Int) - d + d).toNat = k.val
    omega

/-- C04. With `mpi4py`, the array returned is distributed over the axis that was asked for, by the number that was given,
and an axis that does not exist is refused: on one process by `AxisException`, on several by `IndexError`.

Partial: without `mpi4py` see `C04_serial_violated`. -/
theorem C04_axis_partial (P : Nat) (x y : Int) (a : Fin d) (hx : axisOf d x = some a) :
    redistAxis d (some P) x y = if -(d : Int) ≤ y ∧ y < d then .ok y
      else .error (if P = 1 then .axisException else .indexError) := by
  have hy : (axisOf d y).isSome = decide (-(d : Int) ≤ y ∧ y < d) := by
    unfold axisOf
    split
    · simp; omega
    · split
      · simp; omega
      · simp; omega
  by_cases hxy : x = y
  · subst hxy
    rw [hx] at hy
    rw [if_pos (by simpa using hy.symm)]
    simp [redistAxis, redistPlan]
  · cases h : axisOf d y with
    | none =>
      rw [h] at hy
      rw [if_neg (by simpa using hy.symm)]
      by_cases hP : P = 1 <;> simp [redistAxis, redistPlan, hxy, hP, h, hx]
    | some b =>
      rw [h] at hy
      rw [if_pos (by simpa using hy.symm)]
      by_cases hP : P = 1 <;> simp [redistAxis, redistPlan, hxy, hP, h, hx]

example : redistAxis 3 (some 4) 0 (-1) = .ok (-1) ∧ redistAxis 3 (some 1) 0 3 = .error .axisException :=
  ⟨C04_axis_partial 4 0 (-1) 0 rfl, C04_axis_partial 1 0 3 0 rfl⟩

/-! ### A concrete case: a 4 × 2 array on three processes, from axis 0 to axis 1 -/

/-- The global array with element `10 i + j` at `(i, j)`. -/
def exG : Arr 2 Nat := ⟨fun k => if k = 0 then 4 else 2, fun i => 10 * i 0 + i 1⟩

/-- Process 0 holds two rows, the others one each. -/
def exLoc (r : Nat) : Arr 2 Nat :=
  ⟨fun k => if k = 0 then (if r = 0 then 2 else 1) else 2,
    fun i => 10 * (i 0 + (if r = 0 then 0 else r + 1)) + i 1⟩

theorem exLoc_block (r : Nat) (hr : r < 3) : IsBlock exG 0 3 r (exLoc r) := by
  have h3 : r = 0 ∨ r = 1 ∨ r = 2 := by omega
  constructor
  · rcases h3 with rfl | rfl | rfl <;> decide
  · intro k hk; simp [exLoc, exG, hk]
  · intro i _
    rcases h3 with rfl | rfl | rfl <;> simp [exLoc, exG, upd, blockStart]

def exEnv : Env 2 Nat := call exG 0 1 3 exLoc

def exSched : List Nat :=
    [0, 1, 0, 2, 0, 1, 0, 2, 1, 0, 1, 0, 2, 1, 0, 2, 1, 2, 1, 2, 0, 1, 2, 0]

def exEnd : RState 2 Nat :=
  (RState.start exEnv (fun _ => true) (fun _ _ => 99) (fun _ _ => 77)).run exEnv exSched

/-- All processes finish; process 1 holds column 1, and process 2 holds nothing (there are two
columns). -/
example : (∀ r, r < 3 → exEnd.pc r = 6) ∧
    (List.range 4).map (fun x => (exEnd.target 1).val fun k => if k = 0 then x else 0) = [1, 11, 21, 31] ∧
    (exEnd.target 2).shape 1 = 0 := by
  decide +kernel

/-- The theorems apply to it, for every schedule. -/
example (sched : List Nat) (r : Nat) (hr : r < 3) :=
  C04_redistribute_partial exG 0 1 3 exLoc (by decide) exLoc_block (fun _ _ => 99) (fun _ _ => 77) sched r hr

/-! ### Where it fails -/

/-- C04 fails without `mpi4py`: the array keeps the axis it had, whatever axis is asked for, and an axis that does not
exist is not refused. -/
theorem C04_serial_violated (x y : Int) : redistAxis d none x y = .ok x := rfl

/-- A 1 × 2 array on two processes, distributed over its last axis, which is then requested as `-1`. -/
def negEnv : Env 2 Nat := ⟨2, fun k => if k = 0 then 1 else 2, 1, 1, fun r => ⟨fun _ => 1, fun _ => r⟩⟩

/-- C04 fails when the current axis is requested by its negative number: instead of returning the
array, `redistribute` starts the exchange, and process 1 raises `ValueError` in its first action
whatever the schedule. -/
theorem C04_negative_axis_violated (junkS junkT : Nat → Idx 2 → Nat) (sched : List Nat) :
    redistPlan 2 2 1 (-1) = .exchange 1 1 ∧
    (∀ r, r < 2 → IsBlock (⟨negEnv.gs, fun i => i 1⟩ : Arr 2 Nat) 1 2 r (negEnv.arr r)) ∧
    ((RState.start negEnv (fun _ => true) junkS junkT).run negEnv sched).pc 1 = 0 ∧
    (1 ∈ sched → ((RState.start negEnv (fun _ => true) junkS junkT).run negEnv sched).err 1
      = some .valueError) := by
  refine ⟨by rfl, ?_, ?_⟩
  · intro r hr
    constructor
    · have : r = 0 ∨ r = 1 := by omega
      rcases this with rfl | rfl <;> decide
    · intro k hk
      have : k = 0 := by omega
      subst this; rfl
    · intro i hi
      have h1 : i 1 < 1 := hi 1
      have : r = 0 ∨ r = 1 := by omega
      rcases this with rfl | rfl <;> simp [negEnv, upd, blockStart] <;> omega
  · have hstage : ∀ j, negEnv.stage 1 0 ⟨negEnv.bufShape 1, j⟩ = .error .valueError := by
      intro j
      unfold Env.stage Arr.assign
      rw [if_neg]
      show ¬ Arr.fitsIn (negEnv.block 1 (negEnv.sendTo 1 0)).shape
        (Arr.slice ⟨negEnv.bufShape 1, fun _ => 0⟩ (negEnv.sendSl 1 0) : Arr 2 Nat).shape
      decide +kernel
    have key : ∀ (s : RState 2 Nat), s.pc 1 = 0 → (∃ j, s.sbuf 1 = ⟨negEnv.bufShape 1, j⟩) →
        (s.err 1 = none ∨ s.err 1 = some .valueError) →
        (s.run negEnv sched).pc 1 = 0 ∧
        ((1 ∈ sched ∨ s.err 1 = some .valueError) → (s.run negEnv sched).err 1 = some .valueError) := by
      induction sched with
      | nil => intro s h1 _ _; exact ⟨h1, by simp [RState.run]⟩
      | cons r rest ih =>
        intro s h1 ⟨j, h2⟩ h3
        show ((((s.step negEnv r).getD s).run negEnv rest).pc 1 = 0) ∧ (_ →
          (((s.step negEnv r).getD s).run negEnv rest).err 1 = some .valueError)
        by_cases hr : r = 1
        · subst hr
          have hst : (s.step negEnv 1).getD s = s.fail 1 .valueError ∨
              (s.step negEnv 1).getD s = s ∧ s.err 1 = some .valueError := by
            unfold RState.step
            rcases h3 with h3 | h3
            · left
              rw [if_neg (by rw [h3, h1]; decide), if_pos (by rw [h1])]
              show s.sendStep negEnv 1 = _
              unfold RState.sendStep
              rw [h1, h2, hstage]
            · right
              rw [if_pos (by rw [h3]; left; rfl)]
              exact ⟨rfl, h3⟩
          rcases hst with hst | ⟨hst, h4⟩
          · rw [hst]
            have := ih (s.fail 1 .valueError) h1 ⟨j, h2⟩ (.inr rfl)
            exact ⟨this.1, fun _ => this.2 (.inr rfl)⟩
          · rw [hst]
            have := ih s h1 ⟨j, h2⟩ h3
            exact ⟨this.1, fun _ => this.2 (.inr h4)⟩
        · have hother : ((s.step negEnv r).getD s).pc 1 = s.pc 1 ∧
              ((s.step negEnv r).getD s).sbuf 1 = s.sbuf 1 ∧
              ((s.step negEnv r).getD s).err 1 = s.err 1 := by
            have hn : (1 : Nat) ≠ r := fun h => hr h.symm
            unfold RState.step
            split
            · exact ⟨rfl, rfl, rfl⟩
            · split
              · simp only [Option.getD_some]
                unfold RState.sendStep
                split
                · exact ⟨rfl, rfl, upd_ne _ _ _ hn⟩
                · exact ⟨upd_ne _ _ _ hn, upd_ne _ _ _ hn, rfl⟩
              · split
                · exact ⟨rfl, rfl, rfl⟩
                · simp only [Option.getD_some]
                  unfold RState.recvStep
                  split
                  · exact ⟨rfl, rfl, upd_ne _ _ _ hn⟩
                  · exact ⟨upd_ne _ _ _ hn, rfl, rfl⟩
          have := ih ((s.step negEnv r).getD s) (hother.1.trans h1) ⟨j, hother.2.1.trans h2⟩
            (by rw [hother.2.2]; exact h3)
          refine ⟨this.1, fun h => this.2 ?_⟩
          rw [hother.2.2]
          rcases h with h | h
          · left
            rcases List.mem_cons.1 h with h | h
            · exact absurd h.symm hr
            · exact h
          · exact .inr h
    have := key (RState.start negEnv (fun _ => true) junkS junkT) rfl ⟨_, rfl⟩ (.inl rfl)
    exact ⟨this.1, fun h => this.2 (.inl h)⟩

/-- C04 fails when the memory check, which is made for each node separately, has different answers:
if process 1 raises `MemoryError`, process 0 waits for it for ever. -/
theorem C04_memory_violated (junkS junkT : Nat → Idx 2 → Nat) (sched : List Nat) :
    let env := call exG 0 1 3 exLoc
    let s := (RState.start env (fun r => r != 1) junkS junkT).run env sched
    s.err 1 = some .memoryError ∧ s.pc 0 < 2 * 3 := by
  intro env
  have key : ∀ (s : RState 2 Nat), s.err 1 = some .memoryError → s.mail 1 0 = none → s.pc 0 ≤ 5 →
      (s.run env sched).err 1 = some .memoryError ∧ (s.run env sched).pc 0 ≤ 5 := by
    induction sched with
    | nil => intro s h1 _ h3; exact ⟨h1, h3⟩
    | cons r rest ih =>
      intro s h1 h2 h3
      show (((s.step env r).getD s).run env rest).err 1 = _ ∧ (((s.step env r).getD s).run env rest).pc 0 ≤ 5
      apply ih
      all_goals unfold RState.step
      · by_cases hr : r = 1
        · subst hr; rw [if_pos (by rw [h1]; left; rfl)]; exact h1
        · have hn : (1 : Nat) ≠ r := fun h => hr h.symm
          split
          · exact h1
          · split
            · simp only [Option.getD_some]
              unfold RState.sendStep
              split
              · exact (upd_ne _ _ _ hn).trans h1
              · exact h1
            · split
              · exact h1
              · simp only [Option.getD_some]
                unfold RState.recvStep
                split
                · exact (upd_ne _ _ _ hn).trans h1
                · exact h1
      · by_cases hr : r = 1
        · subst hr; rw [if_pos (by rw [h1]; left; rfl)]; exact h2
        · have hn : (1 : Nat) ≠ r := fun h => hr h.symm
          split
          · exact h2
          · split
            · simp only [Option.getD_some]
              unfold RState.sendStep
              split
              · exact h2
              · show upd s.mail r _ 1 0 = none
                rw [upd_ne _ _ _ hn]; exact h2
            · split
              · exact h2
              · simp only [Option.getD_some]
                unfold RState.recvStep
                split
                · exact h2
                · rename_i m hm t ht
                  show upd s.mail (env.recvFrom r (s.pc r / 2))
                    (upd (s.mail (env.recvFrom r (s.pc r / 2))) r none) 1 0 = none
                  by_cases hq : env.recvFrom r (s.pc r / 2) = 1
                  · rw [hq, upd_self]
                    unfold upd
                    split
                    · rfl
                    · exact h2
                  · rw [upd_ne _ _ _ (Ne.symm hq)]; exact h2
      · by_cases hr : r = 0
        · subst hr
          split
          · exact h3
          · next hc =>
            split
            · next hev =>
              simp only [Option.getD_some]
              unfold RState.sendStep
              split
              · exact h3
              · show upd s.pc 0 (s.pc 0 + 1) 0 ≤ 5
                rw [upd_self]; omega
            · next hodd =>
              split
              · exact h3
              · next m hm =>
                have hne : s.pc 0 ≠ 5 := by
                  intro h5
                  rw [h5] at hm
                  have : env.recvFrom 0 (5 / 2) = 1 := rfl
                  rw [this, h2] at hm
                  cases hm
                simp only [Option.getD_some]
                unfold RState.recvStep
                split
                · exact h3
                · show upd s.pc 0 (s.pc 0 + 1) 0 ≤ 5
                  rw [upd_self]; omega
        · have hn : (0 : Nat) ≠ r := fun h => hr h.symm
          split
          · exact h3
          · split
            · simp only [Option.getD_some]
              unfold RState.sendStep
              split
              · exact h3
              · exact (congrArg (· ≤ 5) (upd_ne _ _ _ hn)).mpr h3
            · split
              · exact h3
              · simp only [Option.getD_some]
                unfold RState.recvStep
                split
                · exact h3
                · exact (congrArg (· ≤ 5) (upd_ne _ _ _ hn)).mpr h3
  have := key (RState.start env (fun r => r != 1) junkS junkT) rfl rfl (Nat.zero_le _)
  exact ⟨this.1, by show _ < 6; have := this.2; omega⟩

end Verif.Mpi
