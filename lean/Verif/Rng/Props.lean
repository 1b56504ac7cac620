import Verif.Rng.Model
import Mathlib.Data.List.Nodup
import Mathlib.Tactic.Common

/-! # C50: filling an array with several threads -/
namespace Verif.Rng

variable {S α : Type}

/-! ## Specification

With `t` threads an array of `n` elements is cut into `t` blocks of `⌈n / t⌉` elements, the last ones perhaps
shorter or empty. Element number `p` is number `p % ⌈n / t⌉` of the block `p / ⌈n / t⌉`, and this block is what
the generator of that thread gives. -/

/-- Block size: the smallest `b` with `n ≤ t * b`. -/
def IsBlockSize (n t b : Nat) : Prop := n ≤ t * b ∧ ∀ c, n ≤ t * c → b ≤ c

/-- The number of elements in block `i` of size `b`. -/
def blockCount (n b i : Nat) : Nat := min b (n - i * b)

/-- `draw g n` gives `n` numbers. -/
def Lawful (draw : S → Nat → List α × S) : Prop := ∀ g n, (draw g n).1.length = n

/-- The final array is the blocks of numbers of the generators. -/
def Filled (draw : S → Nat → List α × S) (gens : List S) (n b : Nat) (mem : Nat → α) : Prop :=
  ∀ p < n, ∃ g, gens[p / b]? = some g ∧ (draw g (blockCount n b (p / b))).1[p % b]? = some (mem p)

/-! ## Lemmas -/

theorem stepSize_spec (n t : Nat) (ht : 0 < t) : IsBlockSize n t (stepSize n t) := by
  unfold stepSize
  refine ⟨?_, ?_⟩
  · have h1 := Nat.div_add_mod (n + t - 1) t
    have h2 := Nat.mod_lt (n + t - 1) ht
    omega
  · intro c hc
    rw [Nat.div_le_iff_le_mul_add_pred ht]
    omega

theorem sliceLen_eq (n b i : Nat) : sliceLen n b i = blockCount n b i := by
  unfold sliceLen blockCount
  rw [Nat.add_mul, Nat.one_mul]
  omega

theorem writesFrom_length (p : Nat) (l : List α) : (writesFrom p l).length = l.length := by
  induction l generalizing p with
  | nil => rfl
  | cons v l ih => simp [writesFrom, ih]

theorem writesFrom_positions (p : Nat) (l : List α) :
    (writesFrom p l).map (·.1) = List.range' p l.length := by
  induction l generalizing p with
  | nil => rfl
  | cons v l ih => simp [writesFrom, ih, List.range'_succ]

theorem writesFrom_mem (p : Nat) (l : List α) (q : Nat) (v : α) (h : (q, v) ∈ writesFrom p l) :
    p ≤ q ∧ l[q - p]? = some v := by
  induction l generalizing p with
  | nil => simp [writesFrom] at h
  | cons u l ih =>
    simp only [writesFrom, List.mem_cons, Prod.mk.injEq] at h
    rcases h with ⟨rfl, rfl⟩ | h
    · simp
    · obtain ⟨h1, h2⟩ := ih (p + 1) h
      refine ⟨by omega, ?_⟩
      have : q - p = (q - (p + 1)) + 1 := by omega
      rw [this, List.getElem?_cons_succ]
      exact h2

/-- What a worker still has to write. -/
def Worker.pending (draw : S → Nat → List α × S) : Worker S α → List (Nat × α)
  | .ready g pos len => writesFrom pos (draw g len).1
  | .writing _ todo => todo

/-- The generator of a worker at the end. -/
def Worker.final (draw : S → Nat → List α × S) : Worker S α → S
  | .ready g _ len => (draw g len).2
  | .writing g _ => g

/-- All that is still to be written. -/
def Machine.pending (draw : S → Nat → List α × S) (m : Machine S α) : List (Nat × α) :=
  (m.workers.map (Worker.pending draw)).flatten

/-- The steps left. -/
def Worker.left (draw : S → Nat → List α × S) : Worker S α → Nat
  | .ready g pos len => (writesFrom pos (draw g len).1).length + 1
  | .writing _ todo => todo.length

theorem Worker.step_pending (draw : S → Nat → List α × S) (w w' : Worker S α) (e : Option (Nat × α))
    (h : w.step draw = some (w', e)) :
    w.pending draw = e.toList ++ w'.pending draw ∧ w'.final draw = w.final draw ∧
      w.left draw = w'.left draw + 1 := by
  match w with
  | .ready g pos len =>
    simp only [Worker.step, Option.some.injEq, Prod.mk.injEq] at h
    obtain ⟨rfl, rfl⟩ := h
    simp [Worker.pending, Worker.final, Worker.left]
  | .writing g [] => simp [Worker.step] at h
  | .writing g (u :: us) =>
    simp only [Worker.step, Option.some.injEq, Prod.mk.injEq] at h
    obtain ⟨rfl, rfl⟩ := h
    simp [Worker.pending, Worker.final, Worker.left]

/-- A machine step, unfolded. -/
theorem Machine.step_spec (draw : S → Nat → List α × S) (m m' : Machine S α) (i : Nat)
    (h : m.step draw i = some m') :
    ∃ w w' e, m.workers[i]? = some w ∧ w.step draw = some (w', e) ∧
      m' = ({ m with workers := m.workers.set i w' } : Machine S α).write e := by
  unfold Machine.step at h
  cases hw : m.workers[i]? with
  | none => rw [hw] at h; simp at h
  | some w =>
    rw [hw] at h
    cases hs : w.step draw with
    | none => simp [hs] at h
    | some r =>
      obtain ⟨w', e⟩ := r
      simp only [hs, Option.some.injEq] at h
      exact ⟨w, w', e, rfl, hs, h.symm⟩

theorem write_workers (m : Machine S α) (e : Option (Nat × α)) : (m.write e).workers = m.workers := by
  cases e <;> rfl

theorem set_flatten_perm {β γ : Type} (f : γ → List β) (l : List γ) (i : Nat) (w w' : γ) (e : List β)
    (hw : l[i]? = some w) (h : f w = e ++ f w') :
    ((l.map f).flatten).Perm (e ++ ((l.set i w').map f).flatten) := by
  induction l generalizing i with
  | nil => simp at hw
  | cons a l ih =>
    cases i with
    | zero =>
      simp only [List.getElem?_cons_zero, Option.some.injEq] at hw
      subst hw
      simp [h]
    | succ i =>
      simp only [List.getElem?_cons_succ] at hw
      simp only [List.map_cons, List.flatten_cons, List.set_cons_succ]
      refine (List.Perm.append_left (f a) (ih i hw)).trans ?_
      rw [← List.append_assoc, ← List.append_assoc]
      exact List.Perm.append_right _ List.perm_append_comm

/-- The invariant: what is still to be written and what has been written are together the positions of the array,
each once; and all values are the right ones. -/
structure Inv (draw : S → Nat → List α × S) (n : Nat) (target : Nat → α → Prop) (mem0 : Nat → α)
    (gens' : List S) (m : Machine S α) : Prop where
  perm : ((m.pending draw).map (·.1) ++ m.log).Perm (List.range n)
  todo : ∀ p v, (p, v) ∈ m.pending draw → target p v
  done : ∀ p ∈ m.log, target p (m.mem p)
  rest : ∀ p, p ∉ m.log → m.mem p = mem0 p
  gens : m.workers.map (Worker.final draw) = gens'

theorem Inv.step {draw : S → Nat → List α × S} {n : Nat} {target : Nat → α → Prop} {mem0 : Nat → α}
    {gens' : List S} {m m' : Machine S α} {i : Nat} (hI : Inv draw n target mem0 gens' m)
    (h : m.step draw i = some m') : Inv draw n target mem0 gens' m' := by
  obtain ⟨w, w', e, hw, hs, rfl⟩ := Machine.step_spec draw m m' i h
  obtain ⟨hp, hf, _⟩ := Worker.step_pending draw w w' e hs
  have hperm := set_flatten_perm (Worker.pending draw) m.workers i w w' e.toList hw hp
  have hgens : (m.workers.set i w').map (Worker.final draw) = gens' := by
    rw [List.map_set, hf, ← hI.gens]
    apply List.ext_getElem?
    intro j
    rw [List.getElem?_set]
    split
    · rename_i hij
      subst hij
      simp [hw]
      obtain ⟨hlt, _⟩ := List.getElem?_eq_some_iff.1 hw
      exact hlt
    · rfl
  cases e with
  | none =>
    simp only [Option.toList_none, List.nil_append] at hperm
    refine ⟨?_, ?_, hI.done, hI.rest, hgens⟩
    · refine List.Perm.trans ?_ hI.perm
      exact List.Perm.append_right _ (hperm.symm.map _)
    · intro p v hm
      exact hI.todo p v (hperm.mem_iff.2 hm)
  | some pv =>
    obtain ⟨p, v⟩ := pv
    simp only [Option.toList_some, List.cons_append, List.nil_append] at hperm
    have hv : target p v := hI.todo p v (hperm.mem_iff.2 (List.mem_cons_self ..))
    have hnd := (hI.perm.nodup_iff).2 List.nodup_range
    refine ⟨?_, ?_, ?_, ?_, ?_⟩
    · refine List.Perm.trans ?_ hI.perm
      simp only [Machine.write, Machine.pending]
      refine List.Perm.trans List.perm_middle ?_
      exact List.Perm.append_right m.log (hperm.symm.map (·.1))
    · intro q u hm
      exact hI.todo q u (hperm.mem_iff.2 (List.mem_cons_of_mem _ hm))
    · intro q hq
      simp only [Machine.write] at hq ⊢
      by_cases hqp : q = p
      · subst hqp; simpa using hv
      · rw [if_neg hqp]
        exact hI.done q ((List.mem_cons.1 hq).resolve_left hqp)
    · intro q hq
      simp only [Machine.write, List.mem_cons, not_or] at hq ⊢
      rw [if_neg hq.1]
      exact hI.rest q hq.2
    · exact hgens

theorem Inv.run {draw : S → Nat → List α × S} {n : Nat} {target : Nat → α → Prop} {mem0 : Nat → α}
    {gens' : List S} {m m' : Machine S α} {is : List Nat} (hI : Inv draw n target mem0 gens' m)
    (h : m.run draw is = some m') : Inv draw n target mem0 gens' m' := by
  induction is generalizing m with
  | nil => simp only [Machine.run, Option.some.injEq] at h; exact h ▸ hI
  | cons i is ih =>
    simp only [Machine.run] at h
    cases hs : m.step draw i with
    | none => simp [hs] at h
    | some m1 =>
      simp only [hs] at h
      exact ih (hI.step hs) h

/-- The value that belongs at a position. -/
def Target (draw : S → Nat → List α × S) (gens : List S) (n b : Nat) (p : Nat) (v : α) : Prop :=
  ∃ g, gens[p / b]? = some g ∧ (draw g (blockCount n b (p / b))).1[p % b]? = some v

theorem jobs_positions (draw : S → Nat → List α × S) (hd : Lawful draw) (n b : Nat) (gens : List S) (i : Nat) :
    (((jobs n b i gens).map (Worker.pending draw)).flatten.map (·.1)) =
      List.range' (min (i * b) n) (min ((i + gens.length) * b) n - min (i * b) n) := by
  induction gens generalizing i with
  | nil => simp [jobs]
  | cons g gens ih =>
    simp only [jobs, List.map_cons, List.flatten_cons, List.map_append, Worker.pending,
      writesFrom_positions, ih]
    rw [hd]
    simp only [sliceStart, sliceLen, List.length_cons]
    have e1 : min ((i + 1) * b) n = min (i * b) n + (min ((i + 1) * b) n - min (i * b) n) := by
      have : i * b ≤ (i + 1) * b := Nat.mul_le_mul_right b (by omega)
      omega
    have e2 : i + 1 + gens.length = i + (gens.length + 1) := by omega
    rw [e2]
    conv_lhs => rhs; rw [e1]
    rw [List.range'_append_1]
    congr 1
    have h1 : i * b ≤ (i + 1) * b := Nat.mul_le_mul_right b (by omega)
    have h2 : (i + 1) * b ≤ (i + (gens.length + 1)) * b := Nat.mul_le_mul_right b (by omega)
    omega

theorem jobs_targets (draw : S → Nat → List α × S) (hd : Lawful draw) (n b : Nat) (all gens : List S) (i : Nat)
    (hall : ∀ j, gens[j]? = all[i + j]?) (p : Nat) (v : α)
    (h : (p, v) ∈ ((jobs n b i gens).map (Worker.pending draw)).flatten) : Target draw all n b p v := by
  induction gens generalizing i with
  | nil => simp [jobs] at h
  | cons g gens ih =>
    simp only [jobs, List.map_cons, List.flatten_cons, List.mem_append, Worker.pending] at h
    rcases h with h | h
    · obtain ⟨h1, h2⟩ := writesFrom_mem _ _ _ _ h
      have hlt : p - sliceStart n b i < sliceLen n b i := by
        have := (List.getElem?_eq_some_iff.1 h2).1
        rwa [hd] at this
      simp only [sliceStart, sliceLen] at h1 hlt
      have hin : i * b < n := by
        have : (i + 1) * b = i * b + b := by rw [Nat.add_mul, Nat.one_mul]
        omega
      have hst : sliceStart n b i = i * b := by unfold sliceStart; omega
      have hb : (i + 1) * b = i * b + b := by rw [Nat.add_mul, Nat.one_mul]
      have hp1 : i * b ≤ p := by omega
      have hp2 : p < i * b + b := by omega
      have hdiv : p / b = i := by
        apply Nat.div_eq_of_lt_le
        · exact hp1
        · rw [hb]; exact hp2
      have hmod : p % b = p - i * b := by
        have := Nat.div_add_mod p b
        rw [hdiv, Nat.mul_comm] at this
        omega
      refine ⟨g, ?_, ?_⟩
      · rw [hdiv]
        have := hall 0
        simpa using this.symm
      · rw [hdiv, ← sliceLen_eq, hmod, ← hst]
        exact h2
    · apply ih (i + 1) _ h
      intro j
      have := hall (j + 1)
      rw [List.getElem?_cons_succ] at this
      rw [this]
      congr 1
      omega

theorem jobs_final (draw : S → Nat → List α × S) (n b : Nat) (gens : List S) (i : Nat) :
    (jobs n b i gens : List (Worker S α)).map (Worker.final draw) =
      (gens.zipIdx i).map fun x => (draw x.1 (blockCount n b x.2)).2 := by
  induction gens generalizing i with
  | nil => simp [jobs]
  | cons g gens ih =>
    simp only [jobs, List.map_cons, Worker.final, ih, sliceLen_eq, List.zipIdx_cons]

theorem Inv.start (draw : S → Nat → List α × S) (hd : Lawful draw) (gens : List S) (hg : gens ≠ [])
    (mem : Nat → α) (n : Nat) :
    Inv draw n (Target draw gens n (stepSize n gens.length)) mem
      (gens.zipIdx.map fun x => (draw x.1 (blockCount n (stepSize n gens.length) x.2)).2)
      (start gens mem n) := by
  have hpos : 0 < gens.length := List.length_pos_of_ne_nil hg
  refine ⟨?_, ?_, ?_, ?_, ?_⟩
  · simp only [Rng.start, Machine.pending, List.append_nil]
    rw [jobs_positions draw hd]
    have := (stepSize_spec n gens.length hpos).1
    rw [List.range_eq_range']
    have e1 : min (0 * stepSize n gens.length) n = 0 := by simp
    have e2 : min ((0 + gens.length) * stepSize n gens.length) n = n := by rw [Nat.zero_add]; omega
    rw [e1, e2]
    simp
  · intro p v h
    exact jobs_targets draw hd n _ gens gens 0 (by simp) p v h
  · simp [Rng.start]
  · simp [Rng.start]
  · exact jobs_final draw n _ gens 0

theorem finished_pending (draw : S → Nat → List α × S) (m : Machine S α) (h : m.finished) :
    m.pending draw = [] ∧ m.workers.map (Worker.final draw) = m.workers.map Worker.gen := by
  have key : ∀ w ∈ m.workers, w.pending draw = [] ∧ w.final draw = w.gen := by
    intro w hw
    have := h w hw
    cases w with
    | ready g pos len => simp [Worker.done] at this
    | writing g todo =>
      simp only [Worker.done, List.isEmpty_iff] at this
      exact ⟨this, rfl⟩
  constructor
  · simp only [Machine.pending, List.flatten_eq_nil_iff, List.mem_map]
    rintro l ⟨w, hw, rfl⟩
    exact (key w hw).1
  · exact List.map_congr_left fun w hw => (key w hw).2

/-! ## The property -/

/-- C50. In whatever order the threads run: when all are done, each element of the array has been written exactly
once, with the right number of the block that belongs to the generator of its thread; nothing else in memory has
changed; and the state of the generators only depends on how many numbers each gave. -/
theorem C50_filled (draw : S → Nat → List α × S) (hd : Lawful draw) (gens : List S) (hg : gens ≠ [])
    (mem : Nat → α) (n : Nat) (order : List Nat) (m : Machine S α)
    (hrun : (start gens mem n).run draw order = some m) (hfin : m.finished) :
    ∃ b, IsBlockSize n gens.length b ∧ Filled draw gens n b m.mem ∧ m.log.Perm (List.range n) ∧
      (∀ p, n ≤ p → m.mem p = mem p) ∧
      m.workers.map Worker.gen = gens.zipIdx.map fun x => (draw x.1 (blockCount n b x.2)).2 := by
  have hpos : 0 < gens.length := List.length_pos_of_ne_nil hg
  have hI := (Inv.start draw hd gens hg mem n).run hrun
  obtain ⟨hp, hf⟩ := finished_pending draw m hfin
  have hperm : m.log.Perm (List.range n) := by simpa [hp] using hI.perm
  refine ⟨stepSize n gens.length, stepSize_spec n _ hpos, ?_, hperm, ?_, ?_⟩
  · intro p hpn
    exact hI.done p (hperm.mem_iff.2 (List.mem_range.2 hpn))
  · intro p hpn
    apply hI.rest p
    intro hm
    have := List.mem_range.1 (hperm.mem_iff.1 hm)
    omega
  · rw [← hf]
    exact hI.gens

/-- C50. The array and the generators afterwards do not depend on the order in which the threads run, nor on
what was in the array before. -/
theorem C50_deterministic (draw : S → Nat → List α × S) (hd : Lawful draw) (gens : List S) (hg : gens ≠ [])
    (mem mem' : Nat → α) (n : Nat) (order order' : List Nat) (m m' : Machine S α)
    (hrun : (start gens mem n).run draw order = some m) (hfin : m.finished)
    (hrun' : (start gens mem' n).run draw order' = some m') (hfin' : m'.finished) :
    (∀ p < n, m.mem p = m'.mem p) ∧ m.workers.map Worker.gen = m'.workers.map Worker.gen := by
  obtain ⟨b, hb, hF, _, _, hG⟩ := C50_filled draw hd gens hg mem n order m hrun hfin
  obtain ⟨b', hb', hF', _, _, hG'⟩ := C50_filled draw hd gens hg mem' n order' m' hrun' hfin'
  have hbb : b = b' := Nat.le_antisymm (hb.2 b' hb'.1) (hb'.2 b hb.1)
  subst hbb
  refine ⟨?_, by rw [hG, hG']⟩
  intro p hp
  obtain ⟨g, hg1, hv⟩ := hF p hp
  obtain ⟨g', hg1', hv'⟩ := hF' p hp
  rw [hg1] at hg1'
  cases hg1'
  rw [hv] at hv'
  exact Option.some.inj hv'

/-- C50. The threads never block each other: as long as they are not all done one of them can make a step, and
however they run, they are done after finitely many steps. -/
theorem C50_progress (draw : S → Nat → List α × S) (m : Machine S α) :
    (¬ m.finished → ∃ i m', m.step draw i = some m') ∧
    ∀ order m', m.run draw order = some m' →
      order.length + (m'.workers.map (Worker.left draw)).sum = (m.workers.map (Worker.left draw)).sum := by
  constructor
  · intro hn
    unfold Machine.finished at hn
    push Not at hn
    obtain ⟨w, hw, hnd⟩ := hn
    obtain ⟨i, hi⟩ := List.mem_iff_getElem?.1 hw
    have : ∃ r, w.step draw = some r := by
      match w with
      | .ready g pos len => exact ⟨_, rfl⟩
      | .writing g [] => simp [Worker.done] at hnd
      | .writing g (u :: us) => exact ⟨_, rfl⟩
    obtain ⟨⟨w', e⟩, hr⟩ := this
    refine ⟨i, ({ m with workers := m.workers.set i w' } : Machine S α).write e, ?_⟩
    unfold Machine.step
    rw [hi]
    simp only [hr]
  · intro order
    induction order generalizing m with
    | nil =>
      intro m' h
      simp only [Machine.run, Option.some.injEq] at h
      subst h
      simp
    | cons i is ih =>
      intro m' h
      simp only [Machine.run] at h
      cases hs : m.step draw i with
      | none => simp [hs] at h
      | some m1 =>
        simp only [hs] at h
        have h1 := ih m1 m' h
        obtain ⟨w, w', e, hw, hws, rfl⟩ := Machine.step_spec draw m m1 i hs
        have hl := (Worker.step_pending draw w w' e hws).2.2
        rw [write_workers] at h1
        have hsum : ∀ (l : List (Worker S α)) (i : Nat), l[i]? = some w →
            (l.map (Worker.left draw)).sum = ((l.set i w').map (Worker.left draw)).sum + 1 := by
          intro l
          induction l with
          | nil => intro i h; simp at h
          | cons a l ihl =>
            intro i h
            cases i with
            | zero =>
              simp only [List.getElem?_cons_zero, Option.some.injEq] at h
              subst h
              simp [hl]
              omega
            | succ i =>
              simp only [List.getElem?_cons_succ] at h
              have := ihl i h
              simp only [List.map_cons, List.sum_cons, List.set_cons_succ]
              omega
        have := hsum m.workers i hw
        simp only [List.length_cons]
        simp only at h1
        omega

/-- Several calls one after the other, each in some order of the threads: the sizes, the arrays returned, and the
generators at the start and at the end. -/
inductive Calls (draw : S → Nat → List α × S) : List S → List Nat → List (List α) → List S → Prop where
  | nil (gens : List S) : Calls draw gens [] [] gens
  | cons {gens gens' : List S} {n : Nat} {ns : List Nat} {outs : List (List α)} (mem : Nat → α)
      (order : List Nat) (m : Machine S α) (hrun : (start gens mem n).run draw order = some m)
      (hfin : m.finished) (rest : Calls draw (m.workers.map Worker.gen) ns outs gens') :
      Calls draw gens (n :: ns) ((List.range n).map m.mem :: outs) gens'

theorem calls_unique (draw : S → Nat → List α × S) (hd : Lawful draw) (gens : List S) (hg : gens ≠ [])
    (ns : List Nat) (outs outs' : List (List α)) (g g' : List S) (h : Calls draw gens ns outs g)
    (h' : Calls draw gens ns outs' g') : outs = outs' ∧ g = g' := by
  induction h generalizing outs' g' with
  | nil gens => cases h'; exact ⟨rfl, rfl⟩
  | @cons gens gens' n ns outs mem order m hrun hfin rest ih =>
    cases h' with
    | cons mem' order' m' hrun' hfin' rest' =>
      obtain ⟨h1, h2⟩ := C50_deterministic draw hd gens hg mem mem' n order order' m m' hrun hfin hrun' hfin'
      rw [← h2] at rest'
      have hne : m.workers.map Worker.gen ≠ [] := by
        obtain ⟨b, _, _, _, _, hG⟩ := C50_filled draw hd gens hg mem n order m hrun hfin
        rw [hG]
        cases gens with
        | nil => exact absurd rfl hg
        | cons a l => simp
      obtain ⟨h3, h4⟩ := ih hne _ _ rest'
      refine ⟨?_, h4⟩
      rw [h3]
      congr 1
      apply List.map_congr_left
      intro p hp
      exact h1 p (List.mem_range.1 hp)

/-- C50. With the same seed and number of threads, the same sequence of calls returns the same arrays, whatever the
order of the threads in each of them. -/
theorem C50_reproducible {Seed : Type} (spawn : Seed → Nat → S) (draw : S → Nat → List α × S) (hd : Lawful draw)
    (seed : Seed) (threads : Nat) (ht : 0 < threads) (ns : List Nat) (outs outs' : List (List α)) (g g' : List S)
    (h : Calls draw (initGens spawn seed threads) ns outs g)
    (h' : Calls draw (initGens spawn seed threads) ns outs' g') : outs = outs' := by
  refine (calls_unique draw hd _ ?_ ns outs outs' g g' h h').1
  intro hc
  simp only [initGens, List.map_eq_nil_iff, List.range_eq_nil] at hc
  omega

/-- C50. In the first call, block number `i` of the array comes from child number `i` of the seed, so that no two
threads use the same one. -/
theorem C50_streams {Seed : Type} (spawn : Seed → Nat → S) (draw : S → Nat → List α × S) (hd : Lawful draw)
    (seed : Seed) (threads : Nat) (ht : 0 < threads) (mem : Nat → α) (n : Nat) (order : List Nat)
    (m : Machine S α) (hrun : (start (initGens spawn seed threads) mem n).run draw order = some m)
    (hfin : m.finished) :
    ∃ b, IsBlockSize n threads b ∧
      ∀ p < n, (draw (spawn seed (p / b)) (blockCount n b (p / b))).1[p % b]? = some (m.mem p) := by
  have hne : initGens spawn seed threads ≠ [] := by
    intro hc
    simp only [initGens, List.map_eq_nil_iff, List.range_eq_nil] at hc
    omega
  obtain ⟨b, hb, hF, _⟩ := C50_filled draw hd _ hne mem n order m hrun hfin
  refine ⟨b, by simpa [initGens] using hb, ?_⟩
  intro p hp
  obtain ⟨g, hg, hv⟩ := hF p hp
  have : g = spawn seed (p / b) := by
    simp only [initGens, List.getElem?_map, Option.map_eq_some_iff] at hg
    obtain ⟨i, hi, rfl⟩ := hg
    obtain ⟨_, h2⟩ := List.getElem?_eq_some_iff.1 hi
    rw [List.getElem_range] at h2
    rw [h2]
  rw [← this]
  exact hv

/-- random.py:194,223-230: what is in a given `out` array when the call returns. `out.ravel()` is a view of `out`
if this is contiguous in row-major order; otherwise the workers fill copies of it. `before` is what was there. -/
def outAfter (view : Bool) (before : Nat → α) (m : Machine S α) : Nat → α := if view then m.mem else before

/-- C50. A given `out` that is contiguous in row-major order is filled. -/
theorem C50_out_partial (draw : S → Nat → List α × S) (hd : Lawful draw) (gens : List S) (hg : gens ≠ [])
    (before : Nat → α) (n : Nat) (order : List Nat) (m : Machine S α)
    (hrun : (start gens before n).run draw order = some m) (hfin : m.finished) :
    ∃ b, IsBlockSize n gens.length b ∧ Filled draw gens n b (outAfter true before m) := by
  obtain ⟨b, hb, hF, _⟩ := C50_filled draw hd gens hg before n order m hrun hfin
  exact ⟨b, hb, hF⟩

/-- A toy generator: counts upwards. -/
def countDraw (g n : Nat) : List Nat × Nat := (List.range' g n, g + n)

/-- C50 fails for an `out` array with another memory layout: it is returned as it was. One thread, which counts
from 1. -/
theorem C50_out_violated (n : Nat) (hn : 0 < n) : Lawful countDraw ∧
    ∀ order m, (start [1] (fun _ => 0) n).run countDraw order = some m → m.finished →
      ∀ b, IsBlockSize n 1 b → ¬ Filled countDraw [1] n b (outAfter false (fun _ => 0) m) := by
  refine ⟨fun g k => by simp [countDraw], ?_⟩
  intro order m hrun hfin b hb hF
  obtain ⟨g, hg, hv⟩ := hF 0 hn
  have hg1 : g = 1 := by simpa [eq_comm] using hg
  subst hg1
  simp only [countDraw, outAfter, Bool.false_eq_true, if_false] at hv
  have := (List.mem_range'_1.1 (List.mem_of_getElem? hv)).1
  omega

/-- Three threads fill seven elements: blocks of three, three and one. Two different orders. -/
example : ((start [100, 200, 300] (fun _ => 0) 7).run countDraw [0, 1, 2, 0, 1, 2, 0, 1, 0, 1]).map
      (fun m => (List.range 8).map m.mem) = some [100, 101, 102, 200, 201, 202, 300, 0] ∧
    ((start [100, 200, 300] (fun _ => 0) 7).run countDraw [2, 2, 1, 1, 1, 1, 0, 0, 0, 0]).map
      (fun m => (m.log, m.workers.map Worker.gen)) = some ([2, 1, 0, 5, 4, 3, 6], [103, 203, 301]) := by
  decide +kernel

end Verif.Rng
