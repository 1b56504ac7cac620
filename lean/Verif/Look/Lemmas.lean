import Verif.Look.Model

/-!
# Lemmas for C117
-/
namespace Verif.Look

variable {ε : Type}

theorem upd_ne (mem : Nat → List ε) {c c' : Nat} (l : List ε) (h : c' ≠ c) : upd mem c l c' = mem c' := by
  unfold upd; rw [if_neg h]

theorem upd_self (mem : Nat → List ε) (c : Nat) (l : List ε) : upd mem c l c = l := by
  unfold upd; rw [if_pos rfl]

/-- Taking arrays: the axes stay, memory in use stays, and the arrays have new numbers. -/
theorem takeAll_spec (l : List (String × Nat)) (w : World ε) (hl : ∀ p ∈ l, p.2 < w.next) :
    (takeAll l w).2.axes = w.axes ∧ (takeAll l w).2.ondisk = w.ondisk ∧ w.next ≤ (takeAll l w).2.next ∧
    (∀ c, c < w.next → (takeAll l w).2.mem c = w.mem c) ∧
    (∀ p ∈ (takeAll l w).1, w.next ≤ p.2.obj ∧ p.2.obj < (takeAll l w).2.next ∧ p.2.cell < (takeAll l w).2.next) ∧
    ((takeAll l w).1.map fun p => (p.1, (takeAll l w).2.mem p.2.cell)) = l.map (fun p => (p.1, w.mem p.2)) ∧
    (w.ondisk = false → (takeAll l w).1.map (fun p => (p.1, p.2.cell)) = l ∧ (takeAll l w).2.mem = w.mem) ∧
    (w.ondisk = true → ∀ p ∈ (takeAll l w).1, w.next ≤ p.2.cell) := by
  induction l generalizing w with
  | nil => simp [takeAll]
  | cons p l ih =>
    obtain ⟨k, c⟩ := p
    have hc : c < w.next := hl _ List.mem_cons_self
    have hl' : ∀ p ∈ l, p.2 < w.next := fun p hp => hl p (List.mem_cons_of_mem _ hp)
    cases hd : w.ondisk with
    | true =>
      have ht : take w c = (⟨w.next, w.next⟩, { w with mem := upd w.mem w.next (w.mem c), next := w.next + 1 }) := by
        unfold take; rw [hd]; rfl
      obtain ⟨i1, i2, i3, i4, i5, i6, -, i8⟩ := ih { w with mem := upd w.mem w.next (w.mem c), next := w.next + 1 }
        (fun p hp => Nat.lt_succ_of_lt (hl' p hp))
      simp only [takeAll, ht]
      simp only at i1 i2 i3 i4 i5 i6 i8
      refine ⟨i1, i2.trans hd, by omega, fun c' hc' => ?_, ?_, ?_, fun h => (by cases h), fun _ => ?_⟩
      · rw [i4 c' (by omega), upd_ne _ _ (by omega)]
      · intro p hp
        rcases List.mem_cons.1 hp with rfl | hp
        · simp only; omega
        · have := i5 p hp; omega
      · rw [List.map_cons, List.map_cons, i6, i4 w.next (by omega), upd_self]
        congr 1
        apply List.map_congr_left
        intro p hp
        rw [upd_ne _ _ (by have := hl' p hp; omega)]
      · intro p hp
        rcases List.mem_cons.1 hp with rfl | hp
        · exact Nat.le_refl _
        · have := i8 hd p hp; omega
    | false =>
      have ht : take w c = (⟨w.next, c⟩, { w with next := w.next + 1 }) := by
        unfold take; rw [hd]; rfl
      obtain ⟨i1, i2, i3, i4, i5, i6, i7, -⟩ := ih { w with next := w.next + 1 } (fun p hp => Nat.lt_succ_of_lt (hl' p hp))
      simp only [takeAll, ht]
      simp only at i1 i2 i3 i4 i5 i6 i7
      refine ⟨i1, i2.trans hd, by omega, fun c' hc' => i4 c' (by omega), ?_, ?_, fun _ => ?_, fun h => (by cases h)⟩
      · intro p hp
        rcases List.mem_cons.1 hp with rfl | hp
        · simp only; omega
        · have := i5 p hp; omega
      · rw [List.map_cons, List.map_cons, i6, i4 c (by omega)]
      · rw [List.map_cons, (i7 hd).1, (i7 hd).2]
        exact ⟨rfl, rfl⟩

theorem mem_setAxis (k : String) (c : Nat) (l : List (String × Nat)) (p : String × Nat) (h : p ∈ setAxis k c l) : p = (k, c) ∨ p ∈ l := by
  induction l with
  | nil => left; simpa [setAxis] using h
  | cons q l ih =>
    obtain ⟨k', c'⟩ := q
    unfold setAxis at h
    split at h
    · rcases List.mem_cons.1 h with h | h
      · exact .inl h
      · exact .inr (List.mem_cons_of_mem _ h)
    · rcases List.mem_cons.1 h with h | h
      · exact .inr (h ▸ List.mem_cons_self)
      · rcases ih h with h | h
        · exact .inl h
        · exact .inr (List.mem_cons_of_mem _ h)

/-- All axes are in memory that is in use. -/
def Ok (w : World ε) : Prop := ∀ p ∈ w.axes, p.2 < w.next

theorem step_ok (w : World ε) (h : Ok w) (o : Op ε) : Ok (step w o).1 ∧ w.next ≤ (step w o).1.next ∧ (step w o).1.ondisk = w.ondisk := by
  cases o with
  | create k vals =>
    simp only [step]
    split
    · exact ⟨h, Nat.le_refl _, rfl⟩
    · refine ⟨fun p hp => ?_, Nat.le_succ _, rfl⟩
      rcases mem_setAxis _ _ _ _ hp with rfl | hp
      · exact Nat.lt_succ_self _
      · exact Nat.lt_succ_of_lt (h p hp)
  | delete k =>
    simp only [step]
    split
    · exact ⟨fun p hp => h p (List.mem_filter.1 hp).1, Nat.le_refl _, rfl⟩
    · exact ⟨h, Nat.le_refl _, rfl⟩
  | look =>
    obtain ⟨h1, h2, h3, -⟩ := takeAll_spec w.axes w h
    refine ⟨fun p hp => ?_, h3, h2⟩
    have : p ∈ w.axes := by rw [← h1]; exact hp
    exact Nat.lt_of_lt_of_le (h p this) h3
  | write c i x => exact ⟨h, Nat.le_refl _, rfl⟩

/-- Memory in use is changed by writing only. -/
theorem step_mem (w : World ε) (h : Ok w) (o : Op ε) (c : Nat) (hc : c < w.next) (ho : ∀ i x, o ≠ .write c i x) :
    (step w o).1.mem c = w.mem c := by
  cases o with
  | create k vals =>
    simp only [step]
    split
    · rfl
    · exact upd_ne _ _ (by omega)
  | delete k =>
    simp only [step]
    split <;> rfl
  | look => exact (takeAll_spec w.axes w h).2.2.2.1 c hc
  | write c' i x =>
    refine upd_ne _ _ fun hcc => ?_
    subst hcc
    exact ho i x rfl

theorem steps_cons (w : World ε) (o : Op ε) (ops : List (Op ε)) : steps w (o :: ops) = steps (step w o).1 ops := rfl

theorem steps_mem (ops : List (Op ε)) (w : World ε) (h : Ok w) (c : Nat) (hc : c < w.next) (ho : ∀ i x, Op.write c i x ∉ ops) :
    (steps w ops).mem c = w.mem c := by
  induction ops generalizing w with
  | nil => rfl
  | cons o ops ih =>
    obtain ⟨s1, s2, -⟩ := step_ok w h o
    rw [steps_cons, ih _ s1 (by omega) (fun i x hm => ho i x (List.mem_cons_of_mem _ hm)),
      step_mem w h o c hc (fun i x he => ho i x (he ▸ List.mem_cons_self))]

/-! ### Comparison -/

theorem sameArrays_iff (np : Numpy ε) (x y : List ε) :
    sameArrays np x y = true ↔ x.length = y.length ∧ ∀ (i : Nat) a b, x[i]? = some a → y[i]? = some b → np.same a b = true := by
  induction x generalizing y with
  | nil =>
    cases y with
    | nil => simp [sameArrays]
    | cons b y => simp [sameArrays]
  | cons a x ih =>
    cases y with
    | nil => simp [sameArrays]
    | cons b y =>
      simp only [sameArrays, Bool.and_eq_true, ih, List.length_cons, Nat.add_right_cancel_iff]
      constructor
      · rintro ⟨h1, h2, h3⟩
        refine ⟨h2, fun i => ?_⟩
        cases i with
        | zero =>
          intro a' b' ha hb
          obtain rfl := Option.some.inj ha
          obtain rfl := Option.some.inj hb
          exact h1
        | succ i => exact h3 i
      · rintro ⟨h2, h3⟩
        exact ⟨h3 0 a b rfl rfl, h2, fun i => h3 (i + 1)⟩

theorem lookup_mem (l : RoDict) (k : String) (a : Arr) (h : l.lookup k = some a) : (k, a) ∈ l := by
  induction l with
  | nil => cases h
  | cons p l ih =>
    obtain ⟨k', a'⟩ := p
    rw [List.lookup_cons] at h
    split at h
    · next he =>
      obtain rfl := Option.some.inj h
      have : k = k' := by simpa using he
      rw [this]
      exact List.mem_cons_self
    · exact List.mem_cons_of_mem _ (ih h)

theorem lookup_of_mem (l : RoDict) (hl : (l.map (·.1)).Nodup) (k : String) (a : Arr) (h : (k, a) ∈ l) : l.lookup k = some a := by
  induction l with
  | nil => cases h
  | cons p l ih =>
    obtain ⟨k', a'⟩ := p
    rw [List.map_cons, List.nodup_cons] at hl
    rw [List.lookup_cons]
    rcases List.mem_cons.1 h with h | h
    · obtain ⟨rfl, rfl⟩ := Prod.mk.inj h
      simp
    · have hne : k ≠ k' := fun he => hl.1 (List.mem_map.2 ⟨(k, a), h, he⟩)
      have : (k == k') = false := by simpa using hne
      rw [this]
      exact ih hl.2 h

/-- The loop goes through if all entries are found and compare true. -/
theorem itemsEq_true (np : Numpy ε) (mem : Nat → List ε) (l r : RoDict) :
    itemsEq np mem l r = .ok true ↔ ∀ p ∈ l, ∃ b, r.lookup p.1 = some b ∧ valueEq np mem p.2 b = .ok true := by
  induction l with
  | nil => simp [itemsEq]
  | cons p l ih =>
    obtain ⟨k, a⟩ := p
    unfold itemsEq
    simp only [List.forall_mem_cons]
    cases hb : r.lookup k with
    | none => simp
    | some b =>
      simp only [Option.some.injEq, exists_eq_left']
      cases hv : valueEq np mem a b with
      | error e => simp
      | ok v => cases v <;> simp [ih]

/-- The loop stops at the first entry that is missing, different or refused. -/
theorem itemsEq_stop (np : Numpy ε) (mem : Nat → List ε) (l r : RoDict) (v : Except Err Bool) (hv : v ≠ .ok true) :
    itemsEq np mem l r = v ↔ ∃ l₁ k a l₂, l = l₁ ++ (k, a) :: l₂ ∧
      (∀ p ∈ l₁, ∃ b, r.lookup p.1 = some b ∧ valueEq np mem p.2 b = .ok true) ∧
      ((r.lookup k = none ∧ v = .ok false) ∨ ∃ b, r.lookup k = some b ∧ valueEq np mem a b = v) := by
  induction l with
  | nil =>
    constructor
    · intro h; exact absurd h.symm hv
    · rintro ⟨l₁, k, a, l₂, h, -⟩
      cases l₁ <;> cases h
  | cons p l ih =>
    obtain ⟨k, a⟩ := p
    have hnext : ∀ b, r.lookup k = some b → valueEq np mem a b = .ok true →
        ((∃ l₁ k' a' l₂, (k, a) :: l = l₁ ++ (k', a') :: l₂ ∧
          (∀ p ∈ l₁, ∃ b, r.lookup p.1 = some b ∧ valueEq np mem p.2 b = .ok true) ∧
          ((r.lookup k' = none ∧ v = .ok false) ∨ ∃ b, r.lookup k' = some b ∧ valueEq np mem a' b = v)) ↔
        itemsEq np mem l r = v) := by
      intro b hb hvb
      rw [ih]
      constructor
      · rintro ⟨l₁, k', a', l₂, he, h1, h2⟩
        cases l₁ with
        | nil =>
          obtain ⟨he1, rfl⟩ := List.cons.inj he
          obtain ⟨rfl, rfl⟩ := Prod.mk.inj he1
          rcases h2 with ⟨h2, -⟩ | ⟨b', h2, h3⟩
          · rw [hb] at h2; cases h2
          · rw [hb] at h2
            obtain rfl := Option.some.inj h2
            exact absurd (h3.symm.trans hvb) hv
        | cons q l₁ =>
          obtain ⟨rfl, he2⟩ := List.cons.inj he
          exact ⟨l₁, k', a', l₂, he2, fun p hp => h1 p (List.mem_cons_of_mem _ hp), h2⟩
      · rintro ⟨l₁, k', a', l₂, rfl, h1, h2⟩
        exact ⟨(k, a) :: l₁, k', a', l₂, rfl, List.forall_mem_cons.2 ⟨⟨b, hb, hvb⟩, h1⟩, h2⟩
    have hhere : ∀ v', itemsEq np mem ((k, a) :: l) r = v' → v' ≠ .ok true →
        ((r.lookup k = none ∧ v' = .ok false) ∨ ∃ b, r.lookup k = some b ∧ valueEq np mem a b = v') →
        (itemsEq np mem ((k, a) :: l) r = v ↔ ∃ l₁ k' a' l₂, (k, a) :: l = l₁ ++ (k', a') :: l₂ ∧
          (∀ p ∈ l₁, ∃ b, r.lookup p.1 = some b ∧ valueEq np mem p.2 b = .ok true) ∧
          ((r.lookup k' = none ∧ v = .ok false) ∨ ∃ b, r.lookup k' = some b ∧ valueEq np mem a' b = v)) := by
      intro v' h1 h2 h3
      rw [h1]
      constructor
      · rintro rfl
        exact ⟨[], k, a, l, rfl, fun p hp => (by cases hp), h3⟩
      · rintro ⟨l₁, k', a', l₂, he, e1, e2⟩
        cases l₁ with
        | nil =>
          obtain ⟨he1, rfl⟩ := List.cons.inj he
          obtain ⟨rfl, rfl⟩ := Prod.mk.inj he1
          rcases h3 with ⟨h3, rfl⟩ | ⟨b, h3, h4⟩
          · rcases e2 with ⟨-, e2⟩ | ⟨b, e2, -⟩
            · exact e2.symm
            · rw [h3] at e2; cases e2
          · rcases e2 with ⟨e2, -⟩ | ⟨b', e2, e3⟩
            · rw [h3] at e2; cases e2
            · rw [h3] at e2
              obtain rfl := Option.some.inj e2
              rw [← h4, e3]
        | cons q l₁ =>
          obtain ⟨rfl, -⟩ := List.cons.inj he
          obtain ⟨b, f1, f2⟩ := e1 _ List.mem_cons_self
          rcases h3 with ⟨h3, -⟩ | ⟨b', h3, h4⟩
          · rw [h3] at f1; cases f1
          · rw [h3] at f1
            obtain rfl := Option.some.inj f1
            exact absurd (h4.symm.trans f2) h2
    cases hb : r.lookup k with
    | none =>
      exact hhere (.ok false) (by rw [itemsEq, hb]) (by simp) (.inl ⟨hb, rfl⟩)
    | some b =>
      cases hvb : valueEq np mem a b with
      | error e => exact hhere (.error e) (by rw [itemsEq, hb]; simp only [hvb]) (by simp) (.inr ⟨b, hb, hvb⟩)
      | ok t =>
        cases t with
        | false => exact hhere (.ok false) (by rw [itemsEq, hb]; simp only [hvb]) (by simp) (.inr ⟨b, hb, hvb⟩)
        | true =>
          have e : itemsEq np mem ((k, a) :: l) r = itemsEq np mem l r := by rw [itemsEq, hb]; simp only [hvb]
          rw [e]
          exact (hnext b hb hvb).symm

end Verif.Look
