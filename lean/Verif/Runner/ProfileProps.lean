import Verif.Runner.Profile
import Mathlib.Tactic.Common
import Mathlib.Tactic.Ring
import Mathlib.Tactic.FieldSimp
import Mathlib.Tactic.Linarith
import Mathlib.Tactic.NormNum
import Mathlib.Algebra.Order.Field.Basic
import Mathlib.Tactic.IntervalCases

/-!
# C85: profiles
-/
namespace Verif.Runner

/-! ### Names -/

theorem digits_length (size rank : Nat) (h : rank < size) : (Nat.toDigits 10 rank).length ≤ rankLength size := by
  rw [Nat.length_toDigits_le_iff (by decide) (by unfold rankLength; omega)]
  unfold rankLength
  exact lt_trans h (Nat.lt_pow_succ_log_self (by decide) size)

theorem padded_length (w r : Nat) (h : (Nat.toDigits 10 r).length ≤ w) : (padded w r).length = w := by
  unfold padded
  simp
  omega

theorem padded_succ (w r : Nat) (hw : 0 < w) : padded (w + 1) r = padded w (r / 10) ++ [Nat.digitChar (r % 10)] := by
  unfold padded
  by_cases hr : r < 10
  · have h1 : r / 10 = 0 := by omega
    have h2 : r % 10 = r := by omega
    rw [h1, h2, Nat.toDigits_of_lt_base hr, Nat.toDigits_zero]
    simp only [List.length_singleton, Nat.add_sub_cancel]
    have : List.replicate w '0' = List.replicate (w - 1) '0' ++ ['0'] := by
      rw [← List.replicate_succ', Nat.sub_add_cancel hw]
    rw [this]
  · rw [Nat.toDigits_of_base_le (by decide) (by omega : 10 ≤ r)]
    simp only [List.length_append, List.length_singleton, List.append_assoc]
    congr 2
    omega

theorem digitChar_lt (a b : Nat) (h : a < b) (hb : b < 10) : Nat.digitChar a < Nat.digitChar b := by
  interval_cases b <;> interval_cases a <;> decide

theorem lt_append {l m : List Char} (h : l < m) (hl : l.length = m.length) (a b : List Char) : l ++ a < m ++ b := by
  induction l generalizing m with
  | nil =>
    cases m with
    | nil => exact absurd h (List.lt_irrefl _)
    | cons => simp at hl
  | cons c l ih =>
    cases m with
    | nil => simp at hl
    | cons e m =>
      rw [List.cons_append, List.cons_append, List.cons_lt_cons_iff]
      rw [List.cons_lt_cons_iff] at h
      rcases h with h | ⟨h1, h2⟩
      · exact .inl h
      · exact .inr ⟨h1, ih h2 (by simpa using hl)⟩

theorem padded_lt (w r s : Nat) (hr : r < s) (hs : s < 10 ^ (w + 1)) : padded (w + 1) r < padded (w + 1) s := by
  induction w generalizing r s with
  | zero =>
    have hs : s < 10 := by simpa using hs
    unfold padded
    rw [Nat.toDigits_of_lt_base hs, Nat.toDigits_of_lt_base (by omega : r < 10)]
    simp only [List.length_singleton, Nat.zero_add, Nat.sub_self, List.replicate_zero, List.nil_append]
    exact List.cons_lt_cons_iff.2 (.inl (digitChar_lt r s hr hs))
  | succ w ih =>
    rw [padded_succ (w + 1) r (by omega), padded_succ (w + 1) s (by omega)]
    have hs' : s / 10 < 10 ^ (w + 1) := by
      rw [Nat.div_lt_iff_lt_mul (by decide), ← Nat.pow_succ]
      exact hs
    rcases Nat.lt_or_ge (r / 10) (s / 10) with h | h
    · refine lt_append (ih _ _ h hs') ?_ _ _
      rw [padded_length, padded_length]
      · rw [Nat.length_toDigits_le_iff (by decide) (by omega)]
        exact hs'
      · rw [Nat.length_toDigits_le_iff (by decide) (by omega)]
        omega
    · have he : r / 10 = s / 10 := by
        have := Nat.div_le_div_right (c := 10) (Nat.le_of_lt hr)
        omega
      rw [he]
      exact List.append_left_lt (List.cons_lt_cons_iff.2 (.inl (digitChar_lt _ _ (by omega) (by omega))))

/-- **C85** The names of the profiles of all processes have the same length, and in alphabetical order they are in the order of the processes; so no two are the same. -/
theorem C85_names (profiler : String) (size r s : Nat) (hrs : r < s) (hs : s < size) :
    profileName profiler size r < profileName profiler size s ∧ (profileName profiler size r).length = (profileName profiler size s).length := by
  have h1 := padded_length _ r (digits_length size r (by omega))
  have h2 := padded_length _ s (digits_length size s hs)
  constructor
  · unfold profileName
    rw [List.append_assoc, List.append_assoc]
    refine List.append_left_lt (lt_append (padded_lt _ r s hrs ?_) (h1.trans h2.symm) _ _)
    exact lt_trans hs (Nat.lt_pow_succ_log_self (by decide) size)
  · unfold profileName
    simp only [List.length_append, h1, h2]

example : profileName "cprofile" 12 3 = "profile_03.prof".toList := by decide +kernel

example : profileName "pyinstrument" 100 9 < profileName "pyinstrument" 100 10 := (C85_names _ 100 9 10 (by decide) (by decide)).1

theorem name_inj (profiler : String) (size r s : Nat) (hr : r < size) (hs : s < size) (h : profileName profiler size r = profileName profiler size s) : r = s := by
  rcases Nat.lt_trichotomy r s with hl | hl | hl
  · have := (C85_names profiler size r s hl hs).1
    rw [h] at this
    exact absurd this (List.lt_irrefl _)
  · exact hl
  · have := (C85_names profiler size s r hl hr).1
    rw [h] at this
    exact absurd this (List.lt_irrefl _)

theorem profAll_at (p : Prof) (hp : p.profile = true) (size : Nat) (cwd : String) (data : Nat → String) (rs : List Nat) (hrs : ∀ r ∈ rs, r < size) (files : Files) :
    (∀ r ∈ rs, profAll p size cwd data rs files cwd (profileName p.profiler size r) = some (data r)) ∧
      ∀ d n, (∀ r ∈ rs, ¬ (d = cwd ∧ n = profileName p.profiler size r)) → profAll p size cwd data rs files d n = files d n := by
  induction rs generalizing files with
  | nil => simp [profAll]
  | cons q rs ih =>
    obtain ⟨ih1, ih2⟩ := ih (fun r hr => hrs r (List.mem_cons_of_mem _ hr)) (profBlock p size q cwd (data q) none files).1
    constructor
    · intro r hr
      rw [profAll]
      by_cases hin : r ∈ rs
      · exact ih1 r hin
      · have hq : r = q := by
          rcases List.mem_cons.1 hr with h | h
          · exact h
          · exact absurd h hin
        subst hq
        rw [ih2]
        · simp [profBlock, hp]
        · rintro s hs ⟨_, hn⟩
          exact hin (name_inj _ _ _ _ (hrs r List.mem_cons_self) (hrs s (List.mem_cons_of_mem _ hs)) hn ▸ hs)
    · intro d n hno
      rw [profAll, ih2 d n (fun r hr => hno r (List.mem_cons_of_mem _ hr))]
      simp only [profBlock, hp, Bool.true_eq_false, if_false]
      rw [if_neg (hno q List.mem_cons_self)]

/-- **C85** (partial) A block with a profiler raises what it raises without, and changes no file if profiling is off. If it is on, every process has a file with its profile, in the directory that is
current at the end of the block, and no other file changes. Other profilers are a `ValueError`.

Missing: see `C85_path_violated`. -/
theorem C85_profiler_partial (profile : Bool) (profiler : String) (path : Option String) (cwd : String) :
    (profiler ≠ "cprofile" ∧ profiler ≠ "pyinstrument" → mkProf profile profiler path cwd = .error .valueError) ∧
    (profiler = "cprofile" ∨ profiler = "pyinstrument" → ∃ p, mkProf profile profiler path cwd = .ok p ∧
      (∀ size rank cwd' data outcome files, (profBlock p size rank cwd' data outcome files).2 = outcome) ∧
      (profile = false → ∀ size rank cwd' data outcome files, (profBlock p size rank cwd' data outcome files).1 = files) ∧
      (profile = true → ∀ size cwd' data files,
        (∀ r < size, profAll p size cwd' data (List.range size) files cwd' (profileName profiler size r) = some (data r)) ∧
        ∀ d n, (d ≠ cwd' ∨ ∀ r < size, n ≠ profileName profiler size r) → profAll p size cwd' data (List.range size) files d n = files d n)) := by
  constructor
  · rintro ⟨h1, h2⟩
    simp [mkProf, profilers, h1, h2]
  · intro h
    refine ⟨⟨profile, profiler, path.getD cwd⟩, ?_, ?_, ?_, ?_⟩
    · rw [mkProf, if_neg]
      rcases h with rfl | rfl <;> simp [profilers]
    · intro size rank cwd' data outcome files
      unfold profBlock
      split <;> rfl
    · rintro rfl size rank cwd' data outcome files
      simp [profBlock]
    · rintro rfl size cwd' data files
      obtain ⟨h1, h2⟩ := profAll_at ⟨true, profiler, path.getD cwd⟩ rfl size cwd' data (List.range size) (fun r hr => List.mem_range.1 hr) files
      refine ⟨fun r hr => h1 r (List.mem_range.2 hr), fun d n hdn => h2 d n fun r hr => ?_⟩
      rintro ⟨hd, hn⟩
      rcases hdn with hdn | hdn
      · exact hdn hd
      · exact hdn r (List.mem_range.1 hr) hn

example : ∃ p, mkProf true "cprofile" none "/run" = .ok p ∧ profAll p 12 "/run" (fun r => toString r) (List.range 12) (fun _ _ => none) "/run" "profile_03.prof".toList = some "3" := by
  obtain ⟨p, h, _, _, h3⟩ := (C85_profiler_partial true "cprofile" none "/run").2 (.inl rfl)
  refine ⟨p, h, ?_⟩
  have := (h3 rfl 12 "/run" (fun r => toString r) (fun _ _ => none)).1 3 (by decide)
  rwa [show profileName "cprofile" 12 3 = "profile_03.prof".toList by decide +kernel] at this

/-- **C85** (violated) The directory given for the profiles is not used: the profile is in the current directory. -/
theorem C85_path_violated (profiler dir cwd data : String) (outcome : Option String) (hp : profiler = "cprofile" ∨ profiler = "pyinstrument") (hd : dir ≠ cwd) (size rank : Nat) :
    ∃ p, mkProf true profiler (some dir) cwd = .ok p ∧ (profBlock p size rank cwd data outcome (fun _ _ => none)).1 cwd (profileName profiler size rank) = some data ∧
      ∀ n, (profBlock p size rank cwd data outcome (fun _ _ => none)).1 dir n = none := by
  refine ⟨⟨true, profiler, dir⟩, ?_, ?_, ?_⟩
  · rw [mkProf, if_neg]
    · rfl
    · rcases hp with rfl | rfl <;> simp [profilers]
  · simp [profBlock]
  · intro n
    simp [profBlock, hd]

example : ∃ p, mkProf true "cprofile" (some "/out") "/run" = .ok p ∧ (profBlock p 4 0 "/run" "data" none (fun _ _ => none)).1 "/run" (profileName "cprofile" 4 0) = some "data" ∧
    ∀ n, (profBlock p 4 0 "/run" "data" none (fun _ _ => none)).1 "/out" n = none := C85_path_violated "cprofile" "/out" "/run" "data" none (.inl rfl) (by decide) 4 0

/-! ### Counters -/

theorem ioUsage_ok (start f : Counters) (h : ∀ x ∈ f, start.lookup x.1 ≠ none) : ∃ u, ioUsage start f = .ok u ∧ ∀ n v, f.lookup n = some v → ∃ s, start.lookup n = some s ∧ u.lookup n = some (v - s) := by
  induction f with
  | nil => exact ⟨[], rfl, by simp⟩
  | cons x f ih =>
    obtain ⟨n, v⟩ := x
    obtain ⟨u, hu, hl⟩ := ih fun y hy => h y (List.mem_cons_of_mem _ hy)
    obtain ⟨s, hs⟩ := Option.ne_none_iff_exists'.1 (h (n, v) List.mem_cons_self)
    refine ⟨(n, v - s) :: u, by rw [ioUsage]; simp only at hs; simp [hs, hu], ?_⟩
    intro m w hw
    rw [List.lookup_cons] at hw ⊢
    by_cases hm : m = n
    · subst hm
      simp only [beq_self_eq_true] at hw ⊢
      cases hw
      exact ⟨s, hs, rfl⟩
    · simp only [beq_eq_false_iff_ne.2 hm] at hw ⊢
      exact hl m w hw

/-- **C85** For each counter the usage of a block is how much it grew; for two blocks, one after the other, the usages add up to that of the whole. -/
theorem C85_io (a b c : Counters) (n : String) (x y z : Int) (hx : a.lookup n = some x) (hy : b.lookup n = some y) (hz : c.lookup n = some z)
    (hab : ∀ e ∈ b, a.lookup e.1 ≠ none) (hbc : ∀ e ∈ c, b.lookup e.1 ≠ none) (hac : ∀ e ∈ c, a.lookup e.1 ≠ none) :
    ∃ u v w p q, ioUsage a b = .ok u ∧ ioUsage b c = .ok v ∧ ioUsage a c = .ok w ∧ u.lookup n = some p ∧ p = y - x ∧ v.lookup n = some q ∧ w.lookup n = some (p + q) := by
  obtain ⟨u, hu, lu⟩ := ioUsage_ok a b hab
  obtain ⟨v, hv, lv⟩ := ioUsage_ok b c hbc
  obtain ⟨w, hw, lw⟩ := ioUsage_ok a c hac
  obtain ⟨s1, h1, k1⟩ := lu n y hy
  obtain ⟨s2, h2, k2⟩ := lv n z hz
  obtain ⟨s3, h3, k3⟩ := lw n z hz
  rw [hx] at h1 h3
  rw [hy] at h2
  cases h1
  cases h2
  cases h3
  refine ⟨u, v, w, y - x, z - y, hu, hv, hw, k1, rfl, k2, ?_⟩
  rw [k3]
  congr 1
  ring

example : ∃ u v w p q, ioUsage [("read_bytes", 5)] [("read_bytes", 9)] = .ok u ∧ ioUsage [("read_bytes", 9)] [("read_bytes", 10)] = .ok v ∧ ioUsage [("read_bytes", 5)] [("read_bytes", 10)] = .ok w ∧
    u.lookup "read_bytes" = some p ∧ p = 9 - 5 ∧ v.lookup "read_bytes" = some q ∧ w.lookup "read_bytes" = some (p + q) :=
  C85_io _ _ _ "read_bytes" 5 9 10 rfl rfl rfl (by simp) (by simp) (by simp)

/-- **C85** The usage of a block has exactly the counters that are read at its end, in their order; a counter that was not read at the start raises `KeyError`, wherever it is in the list. -/
theorem C85_io_names (a b : Counters) :
    ((∀ e ∈ b, a.lookup e.1 ≠ none) → ∃ u, ioUsage a b = .ok u ∧ u.map Prod.fst = b.map Prod.fst) ∧ ((∃ e ∈ b, a.lookup e.1 = none) → ioUsage a b = .error .keyError) := by
  induction b with
  | nil => exact ⟨fun _ => ⟨[], rfl, rfl⟩, by simp⟩
  | cons x b ih =>
    obtain ⟨n, v⟩ := x
    constructor
    · intro h
      obtain ⟨u, hu, hn⟩ := ih.1 fun y hy => h y (List.mem_cons_of_mem _ hy)
      obtain ⟨s, hs⟩ := Option.ne_none_iff_exists'.1 (h (n, v) List.mem_cons_self)
      refine ⟨(n, v - s) :: u, by rw [ioUsage]; simp only at hs; simp [hs, hu], by simp [hn]⟩
    · rintro ⟨e, he, hl⟩
      rw [ioUsage]
      cases hs : a.lookup n with
      | none => rfl
      | some s =>
        rcases List.mem_cons.1 he with rfl | he
        · rw [hs] at hl
          cases hl
        · simp [ih.2 ⟨e, he, hl⟩]

example : ioUsage [("read_bytes", 5)] [("read_bytes", 9), ("write_bytes", 3)] = .error .keyError := (C85_io_names _ _).2 ⟨("write_bytes", 3), by simp, rfl⟩

/-! ### The table of tasks -/

/-- The profilers that a history makes, in order: whether they are used, and their labels. -/
def made (ops : List POp) : List (Bool × String) :=
  ops.filterMap fun op => match op with
    | .new use l none => some (use, l)
    | _ => none

/-- `op` starts profiler `i`: `start`, or the beginning of a block with a profiler that is used. -/
def Starts (ops : List POp) (op : POp) (i : Nat) : Prop := op = .start i ∨ op = .enter i ∧ ∃ l, (made ops)[i]? = some (true, l)

/-- `op` is to stop profiler `i`: `stop`, or the end of a block with a profiler that is used. -/
def Stops (ops : List POp) (op : POp) (i : Nat) : Prop := op = .stop i ∨ op = .leave i ∧ ∃ l, (made ops)[i]? = some (true, l)

/-- Profiler `i` was started in the history. -/
def Started (ops : List POp) (i : Nat) : Prop := ∃ pre op post, ops = pre ++ op :: post ∧ i < (made pre).length ∧ Starts pre op i

/-- The labels of the profilers that a history stops after they were started, in order. -/
inductive Measured : List POp → List String → Prop
  | nil : Measured [] []
  | stop {ops ls op} (i : Nat) (use : Bool) (l : String) : Measured ops ls → Stops ops op i → Started ops i → (made ops)[i]? = some (use, l) → Measured (ops ++ [op]) (ls ++ [l])
  | other {ops ls op} : Measured ops ls → (∀ i, Stops ops op i → ¬ Started ops i) → Measured (ops ++ [op]) ls

theorem prun_append (s : PState) (a b : List POp) : prun s (a ++ b) = ((prun (prun s a).1 b).1, (prun s a).2 ++ (prun (prun s a).1 b).2) := by
  induction a generalizing s with
  | nil => simp [prun]
  | cons op a ih => simp [prun, ih]

theorem prun_snoc (s : PState) (a : List POp) (op : POp) : (prun s (a ++ [op])).1 = (pstep (prun s a).1 op).1 := by
  rw [prun_append]
  rfl

theorem made_snoc (a : List POp) (op : POp) : made (a ++ [op]) = made a ++ made [op] := by
  unfold made
  rw [List.filterMap_append]

theorem started_lt {ops : List POp} {i : Nat} (h : Started ops i) : i < (made ops).length := by
  obtain ⟨pre, op, post, rfl, hi, _⟩ := h
  unfold made at hi ⊢
  rw [List.filterMap_append, List.length_append]
  omega

theorem started_snoc (ops : List POp) (op : POp) (i : Nat) : Started (ops ++ [op]) i ↔ Started ops i ∨ i < (made ops).length ∧ Starts ops op i := by
  constructor
  · rintro ⟨pre, o, post, h, hi, hs⟩
    rcases List.eq_nil_or_concat post with rfl | ⟨q, x, rfl⟩
    · obtain ⟨h1, h2⟩ := List.append_inj' h rfl
      cases h2
      subst h1
      exact .inr ⟨hi, hs⟩
    · left
      have h : ops ++ [op] = (pre ++ o :: q) ++ [x] := by simpa using h
      obtain ⟨h1, _⟩ := List.append_inj' h rfl
      exact ⟨pre, o, q, h1, hi, hs⟩
  · rintro (⟨pre, o, post, rfl, hi, hs⟩ | ⟨hi, hs⟩)
    · exact ⟨pre, o, post ++ [op], by simp, hi, hs⟩
    · exact ⟨ops, op, [], rfl, hi, hs⟩

/-- The profilers of a state are those of its history. -/
def Same (s : PState) (ops : List POp) : Prop :=
  s.objs.map (fun o => (o.use, o.label)) = made ops ∧ ∀ i (o : PObj), s.objs[i]? = some o → (o.started = true ↔ Started ops i)

theorem start_same (s : PState) (ops : List POp) (h : Same s ops) (op : POp) (i : Nat) (hm : made [op] = []) (hs : ∀ j, Starts ops op j ↔ j = i) :
    Same (startProf i s).1 (ops ++ [op]) := by
  obtain ⟨h1, h2⟩ := h
  constructor
  · rw [made_snoc, hm, List.append_nil, ← h1]
    apply List.ext_getElem?
    intro j
    simp only [startProf, List.getElem?_map, List.getElem?_modify]
    by_cases hj : i = j
    · cases s.objs[j]? <;> simp [hj]
    · simp [hj]
  · intro j o hj
    rw [started_snoc, hs]
    simp only [startProf, List.getElem?_modify] at hj
    by_cases hij : i = j
    · subst hij
      simp only [if_true] at hj
      cases ho : s.objs[i]? with
      | none => simp [ho] at hj
      | some o' =>
        rw [ho] at hj
        cases hj
        have hlt : i < (made ops).length := by
          rw [← h1, List.length_map]
          exact (List.getElem?_eq_some_iff.1 ho).1
        simp [hlt]
    · have hj : s.objs[j]? = some o := by simpa [hij] using hj
      rw [h2 j o hj]
      constructor
      · exact .inl
      · rintro (h | ⟨_, h⟩)
        · exact h
        · exact absurd h.symm hij

theorem keep_same (s t : PState) (ops : List POp) (h : Same s ops) (op : POp) (hm : made [op] = []) (hs : ∀ j, ¬ Starts ops op j) (ht : t.objs = s.objs) : Same t (ops ++ [op]) := by
  obtain ⟨h1, h2⟩ := h
  constructor
  · rw [made_snoc, hm, List.append_nil, ht, h1]
  · intro i o ho
    rw [started_snoc, h2 i o (ht ▸ ho)]
    constructor
    · exact .inl
    · rintro (h | ⟨_, h⟩)
      · exact h
      · exact absurd h (hs i)

theorem stop_objs (i : Nat) (s : PState) : (stopProf i s).1.objs = s.objs := by
  unfold stopProf
  split
  · rfl
  · split <;> rfl

theorem used_iff (s : PState) (ops : List POp) (h : Same s ops) (i : Nat) : (s.objs[i]?.map (·.use)).getD false = true ↔ ∃ l, (made ops)[i]? = some (true, l) := by
  rw [← h.1, List.getElem?_map]
  cases s.objs[i]? with
  | none => simp
  | some o => simp

theorem step_same (s : PState) (ops : List POp) (h : Same s ops) (op : POp) : Same (pstep s op).1 (ops ++ [op]) := by
  cases op with
  | new use label path =>
    cases path with
    | some p => exact keep_same s _ ops h _ rfl (by simp [Starts]) rfl
    | none =>
      obtain ⟨h1, h2⟩ := h
      constructor
      · rw [made_snoc]
        simp [pstep, newProf, made]
        rw [h1]
        rfl
      · intro i o ho
        rw [started_snoc]
        have hn : ¬ (i < (made ops).length ∧ Starts ops (.new use label none) i) := by simp [Starts]
        simp only [hn, or_false]
        simp only [pstep, newProf] at ho
        by_cases hi : i < s.objs.length
        · rw [List.getElem?_append_left hi] at ho
          exact h2 i o ho
        · have hns : ¬ Started ops i := by
            intro hs
            have := started_lt hs
            rw [← h1, List.length_map] at this
            omega
          rw [List.getElem?_append_right (by omega)] at ho
          rcases hk : i - s.objs.length with _ | k
          · rw [hk] at ho
            cases ho
            simp [hns]
          · rw [hk] at ho
            simp at ho
  | start i => exact start_same s ops h _ i rfl (by simp [Starts, eq_comm])
  | stop i => exact keep_same s _ ops h _ rfl (by simp [Starts]) (stop_objs i s)
  | enter i =>
    have hu := used_iff s ops h i
    by_cases hc : (s.objs[i]?.map (·.use)).getD false = true
    · simp only [pstep, hc, if_true]
      refine start_same s ops h _ i rfl fun j => ?_
      constructor
      · rintro (h | ⟨h, _⟩)
        · cases h
        · cases h
          rfl
      · rintro rfl
        exact .inr ⟨rfl, hu.1 hc⟩
    · simp only [pstep, hc]
      refine keep_same s _ ops h _ rfl ?_ rfl
      rintro j (h | ⟨h, hl⟩)
      · cases h
      · cases h
        exact hc (hu.2 hl)
  | leave i =>
    refine keep_same s _ ops h _ rfl (by simp [Starts]) ?_
    simp only [pstep]
    split
    · exact stop_objs i s
    · rfl

theorem snoc_induction {α : Type} {P : List α → Prop} (nil : P []) (snoc : ∀ l a, P l → P (l ++ [a])) (l : List α) : P l := by
  have h : ∀ m : List α, P m.reverse := by
    intro m
    induction m with
    | nil => exact nil
    | cons a m ih =>
      rw [List.reverse_cons]
      exact snoc _ a ih
  simpa using h l.reverse

theorem run_same (f : Option (List Line)) (ops : List POp) : Same (prun ⟨f, []⟩ ops).1 ops := by
  induction ops using snoc_induction with
  | nil => exact ⟨rfl, by simp [prun]⟩
  | snoc ops op ih =>
    rw [prun_snoc]
    exact step_same _ ops ih op

/-- What an operation raises, and what it adds to the table. -/
theorem step_stop (s : PState) (ops : List POp) (h : Same s ops) (op : POp) (i : Nat) (hs : Stops ops op i) :
    (Started ops i → ∃ u l, (made ops)[i]? = some (u, l) ∧ (pstep s op).1.file = some (s.file.getD [] ++ [.row l]) ∧ (pstep s op).2 = none) ∧
      (i < (made ops).length → ¬ Started ops i → (pstep s op).1 = s ∧ (pstep s op).2 = some .runtimeError) ∧
      ((made ops).length ≤ i → (pstep s op).1 = s) := by
  have hp : pstep s op = stopProf i s := by
    rcases hs with rfl | ⟨rfl, hl⟩
    · rfl
    · rw [pstep, if_pos ((used_iff s ops h i).2 hl)]
  rw [hp]
  have hlen : (made ops).length = s.objs.length := by rw [← h.1, List.length_map]
  refine ⟨fun hst => ?_, fun hi hst => ?_, fun hi => ?_⟩
  · have hi := started_lt hst
    obtain ⟨o, ho⟩ : ∃ o, s.objs[i]? = some o := ⟨s.objs[i]'(by omega), List.getElem?_eq_getElem _⟩
    refine ⟨o.use, o.label, ?_, ?_⟩
    · rw [← h.1, List.getElem?_map, ho]
      rfl
    · have := (h.2 i o ho).2 hst
      simp [stopProf, ho, this]
  · obtain ⟨o, ho⟩ : ∃ o, s.objs[i]? = some o := ⟨s.objs[i]'(by omega), List.getElem?_eq_getElem _⟩
    have : o.started = false := by
      have := mt (h.2 i o ho).1 hst
      simpa using this
    simp [stopProf, ho, this]
  · have : s.objs[i]? = none := List.getElem?_eq_none (by omega)
    simp [stopProf, this]

theorem step_other (s : PState) (ops : List POp) (h : Same s ops) (op : POp) (hs : ∀ i, ¬ Stops ops op i) (hn : ∀ l p, op ≠ .new true l p) : (pstep s op).1.file = s.file := by
  cases op with
  | new use l p =>
    cases p with
    | some p => rfl
    | none =>
      cases use with
      | true => exact absurd rfl (hn l none)
      | false => simp [pstep, newProf]
  | start i => rfl
  | stop i => exact absurd (.inl rfl) (hs i)
  | enter i =>
    simp only [pstep]
    split <;> rfl
  | leave i =>
    simp only [pstep]
    split
    · rename_i hc
      exact absurd (.inr ⟨rfl, (used_iff s ops h i).1 hc⟩) (hs i)
    · rfl

theorem stops_inj {ops : List POp} {op : POp} {i j : Nat} (hi : Stops ops op i) (hj : Stops ops op j) : i = j := by
  rcases hi with rfl | ⟨rfl, _⟩ <;> rcases hj with h | ⟨h, _⟩ <;> cases h <;> rfl

/-- The rows of a table. -/
def rows (t : Option (List Line)) : List String :=
  (t.getD []).filterMap fun x => match x with
    | .row l => some l
    | .header => none

theorem rows_snoc (t : Option (List Line)) (l : String) : rows (some (t.getD [] ++ [.row l])) = rows t ++ [l] := by
  simp [rows]

/-- **C85** Whatever profilers are made, started and stopped, in whatever order: the rows of the table are those that were there, and then one for each measurement, in order. -/
theorem C85_rows (f : Option (List Line)) (ops : List POp) : ∃ ls, Measured ops ls ∧ rows (prun ⟨f, []⟩ ops).1.file = rows f ++ ls := by
  induction ops using snoc_induction with
  | nil => exact ⟨[], .nil, by simp [prun]⟩
  | snoc ops op ih =>
    obtain ⟨ls, hm, hr⟩ := ih
    have hsame := run_same f ops
    rw [prun_snoc]
    by_cases hs : ∃ i, Stops ops op i
    · obtain ⟨i, hs⟩ := hs
      obtain ⟨h1, h2, h3⟩ := step_stop _ ops hsame op i hs
      by_cases hst : Started ops i
      · obtain ⟨u, l, hl, hf, _⟩ := h1 hst
        refine ⟨ls ++ [l], .stop i u l hm hs hst hl, ?_⟩
        rw [hf, rows_snoc, hr, List.append_assoc]
      · refine ⟨ls, .other hm fun j hj => stops_inj hs hj ▸ hst, ?_⟩
        rw [← hr]
        rcases Nat.lt_or_ge i (made ops).length with hi | hi
        · rw [(h2 hi hst).1]
        · rw [h3 hi]
    · have hs : ∀ i, ¬ Stops ops op i := fun i h => hs ⟨i, h⟩
      refine ⟨ls, .other hm fun j hj => absurd hj (hs j), ?_⟩
      rw [← hr]
      by_cases hn : ∃ l p, op = .new true l p
      · obtain ⟨l, p, rfl⟩ := hn
        cases p with
        | some p => rfl
        | none =>
          simp only [pstep, newProf]
          cases (prun ⟨f, []⟩ ops).1.file <;> rfl
      · rw [step_other _ ops hsame op hs fun l p h => hn ⟨l, p, h⟩]

example : ∃ ls, Measured [.new true "a" none, .enter 0, .leave 0] ls ∧ rows (prun ⟨none, []⟩ [.new true "a" none, .enter 0, .leave 0]).1.file = rows none ++ ls := C85_rows _ _

example : (prun ⟨none, []⟩ [.new true "a" none, .enter 0, .leave 0]).1.file = some [.header, .row "a"] := rfl

/-- **C85** An operation fails only if it makes a profiler with a path, or stops one that was not started; that is a `RuntimeError`, and leaves the table as it was. -/
theorem C85_stop (f : Option (List Line)) (ops : List POp) (op : POp) :
    ((∀ use l p, op ≠ .new use l (some p)) → (∀ i, Stops ops op i → Started ops i ∨ (made ops).length ≤ i) → (pstep (prun ⟨f, []⟩ ops).1 op).2 = none) ∧
      ∀ i, Stops ops op i → i < (made ops).length → ¬ Started ops i → pstep (prun ⟨f, []⟩ ops).1 op = ((prun ⟨f, []⟩ ops).1, some .runtimeError) := by
  have hsame := run_same f ops
  constructor
  · intro hn hs
    by_cases hst : ∃ i, Stops ops op i
    · obtain ⟨i, hst⟩ := hst
      rcases hs i hst with h | h
      · obtain ⟨_, _, _, _, h⟩ := (step_stop _ ops hsame op i hst).1 h
        exact h
      · have hp : pstep (prun ⟨f, []⟩ ops).1 op = stopProf i (prun ⟨f, []⟩ ops).1 := by
          rcases hst with rfl | ⟨rfl, hl⟩
          · rfl
          · rw [pstep, if_pos ((used_iff _ ops hsame i).2 hl)]
        rw [hp]
        have : (prun ⟨f, []⟩ ops).1.objs[i]? = none := List.getElem?_eq_none (by rwa [← hsame.1, List.length_map] at h)
        simp [stopProf, this]
    · cases op with
      | new use l p =>
        cases p with
        | some p => exact absurd rfl (hn use l p)
        | none => rfl
      | start i => rfl
      | stop i => exact absurd ⟨i, .inl rfl⟩ hst
      | enter i =>
        simp only [pstep]
        split <;> rfl
      | leave i =>
        simp only [pstep]
        split
        · rename_i hc
          exact absurd ⟨i, .inr ⟨rfl, (used_iff _ ops hsame i).1 hc⟩⟩ hst
        · rfl
  · intro i hs hi hst
    obtain ⟨h1, h2⟩ := (step_stop _ ops hsame op i hs).2.1 hi hst
    exact Prod.ext h1 h2

example : pstep (prun ⟨none, []⟩ [.new true "a" none]).1 (.stop 0) = ((prun ⟨none, []⟩ [.new true "a" none]).1, some .runtimeError) :=
  (C85_stop none [.new true "a" none] (.stop 0)).2 0 (.inl rfl) (by decide) (by
    rintro ⟨pre, op, post, h, hi, hs⟩
    rcases pre with _ | ⟨a, pre⟩
    · simp [made] at hi
    · simp at h)

theorem used_mono (a : List POp) (op : POp) (h : ∃ l, (true, l) ∈ made a) : ∃ l, (true, l) ∈ made (a ++ [op]) := by
  obtain ⟨l, h⟩ := h
  rw [made_snoc]
  exact ⟨l, List.mem_append_left _ h⟩

theorem made_prefix (a b : List POp) (i : Nat) (h : i < (made a).length) : (made (a ++ b))[i]? = (made a)[i]? := by
  have : made (a ++ b) = made a ++ made b := by
    unfold made
    rw [List.filterMap_append]
  rw [this, List.getElem?_append_left h]

/-- **C85** (partial) If profilers that are not used are not started except by blocks, then the table of a process has its header once, at the beginning, and then a row for each measurement, in order;
there is no table if no profiler is used. If the table was there before, only the rows are added to it.

Missing: see `C85_header_violated`. -/
theorem C85_table_partial (f : Option (List Line)) (ops : List POp) (hused : ∀ i, .start i ∈ ops → ∀ use l, (made ops)[i]? = some (use, l) → use = true) :
    ∃ ls, Measured ops ls ∧ (∀ t, f = some t → (prun ⟨f, []⟩ ops).1.file = some (t ++ ls.map .row)) ∧
      (f = none → (∃ l, (true, l) ∈ made ops) → (prun ⟨f, []⟩ ops).1.file = some (.header :: ls.map .row)) ∧
      (f = none → (¬ ∃ l, (true, l) ∈ made ops) → (prun ⟨f, []⟩ ops).1.file = none ∧ ls = []) := by
  induction ops using snoc_induction with
  | nil => exact ⟨[], .nil, by simp [prun], by simp [made], fun h _ => ⟨by simp [prun, h], rfl⟩⟩
  | snoc ops op ih =>
    have hused' : ∀ i, .start i ∈ ops → ∀ use l, (made ops)[i]? = some (use, l) → use = true := by
      intro i hi use l hl
      refine hused i (List.mem_append_left _ hi) use l ?_
      rw [made_prefix _ _ _ (List.getElem?_eq_some_iff.1 hl).1, hl]
    obtain ⟨ls, hm, a1, a2, a3⟩ := ih hused'
    have hsame := run_same f ops
    rw [prun_snoc]
    by_cases hs : ∃ i, Stops ops op i
    · obtain ⟨i, hs⟩ := hs
      obtain ⟨h1, h2, h3⟩ := step_stop _ ops hsame op i hs
      have hmade : made (ops ++ [op]) = made ops := by
        rw [made_snoc]
        rcases hs with rfl | ⟨rfl, _⟩ <;> simp [made]
      rw [hmade]
      by_cases hst : Started ops i
      · obtain ⟨u, l, hl, hf, _⟩ := h1 hst
        have hu : u = true := by
          obtain ⟨pre, o, post, rfl, hi, ho⟩ := hst
          rcases ho with rfl | ⟨_, l', hl'⟩
          · exact hused' i (by simp) u l hl
          · rw [made_prefix _ _ _ hi, hl'] at hl
            cases hl
            rfl
        subst hu
        refine ⟨ls ++ [l], .stop i true l hm hs hst hl, ?_, ?_, ?_⟩
        · rintro t rfl
          rw [hf, a1 t rfl]
          simp
        · rintro rfl hx
          rw [hf, a2 rfl hx]
          simp
        · rintro rfl hx
          exact absurd ⟨l, List.mem_of_getElem? hl⟩ hx
      · refine ⟨ls, .other hm fun j hj => stops_inj hs hj ▸ hst, ?_⟩
        have : (pstep (prun ⟨f, []⟩ ops).1 op).1 = (prun ⟨f, []⟩ ops).1 := by
          rcases Nat.lt_or_ge i (made ops).length with hi | hi
          · exact (h2 hi hst).1
          · exact h3 hi
        rw [this]
        exact ⟨a1, a2, a3⟩
    · have hs : ∀ i, ¬ Stops ops op i := fun i h => hs ⟨i, h⟩
      refine ⟨ls, .other hm fun j hj => absurd hj (hs j), ?_⟩
      by_cases hn : ∃ l, op = .new true l none
      · obtain ⟨l, rfl⟩ := hn
        refine ⟨?_, ?_, ?_⟩
        · intro t ht
          simp [pstep, newProf, a1 t ht]
        · rintro hf -
          by_cases hx : ∃ l, (true, l) ∈ made ops
          · simp [pstep, newProf, a2 hf hx]
          · obtain ⟨b1, b2⟩ := a3 hf hx
            simp [pstep, newProf, b1, b2]
        · intro hf hx
          refine absurd ⟨l, ?_⟩ hx
          rw [made_snoc]
          simp [made]
      · have hfile : (pstep (prun ⟨f, []⟩ ops).1 op).1.file = (prun ⟨f, []⟩ ops).1.file := by
          by_cases hp : ∃ l p, op = .new true l p
          · obtain ⟨l, p, rfl⟩ := hp
            cases p with
            | none => exact absurd ⟨l, rfl⟩ hn
            | some p => rfl
          · exact step_other _ ops hsame op hs fun l p h => hp ⟨l, p, h⟩
        have hmem : (∃ l, (true, l) ∈ made (ops ++ [op])) ↔ ∃ l, (true, l) ∈ made ops := by
          constructor
          · rintro ⟨l, hl⟩
            rw [made_snoc, List.mem_append] at hl
            rcases hl with hl | hl
            · exact ⟨l, hl⟩
            · exfalso
              cases op with
              | new use l' p =>
                cases p with
                | none =>
                  simp [made] at hl
                  exact hn ⟨l', by rw [hl.1]⟩
                | some p => simp [made] at hl
              | start i => simp [made] at hl
              | stop i => simp [made] at hl
              | enter i => simp [made] at hl
              | leave i => simp [made] at hl
          · exact used_mono ops op
        rw [hfile, hmem]
        exact ⟨a1, a2, a3⟩

example : ∃ ls, Measured [.new true "a" none, .enter 0, .leave 0, .new false "b" none, .enter 1, .leave 1] ls ∧
    (prun ⟨none, []⟩ [.new true "a" none, .enter 0, .leave 0, .new false "b" none, .enter 1, .leave 1]).1.file = some (.header :: ls.map .row) := by
  obtain ⟨ls, h, _, h2, _⟩ := C85_table_partial none [.new true "a" none, .enter 0, .leave 0, .new false "b" none, .enter 1, .leave 1] (by simp)
  exact ⟨ls, h, h2 rfl ⟨"a", by simp [made]⟩⟩

/-- **C85** (violated) A profiler that is not used still writes to the table if it is started and stopped, and then there is no header, also when a profiler is used later. -/
theorem C85_header_violated : (prun ⟨none, []⟩ [.new false "a" none, .start 0, .stop 0, .new true "b" none, .enter 1, .leave 1]).1.file = some [.row "a", .row "b"] := rfl

/-- **C85** (violated) A profiler of this kind cannot be made with a path. -/
theorem C85_table_path_violated (s : PState) (use : Bool) (label path : String) : pstep s (.new use label (some path)) = (s, some .attributeError) := rfl

example : pstep ⟨none, []⟩ (.new true "a" (some "/out")) = (⟨none, []⟩, some .attributeError) := C85_table_path_violated _ _ _ _

/-! ### Memory -/

theorem foldl_max (l : List Nat) (a : Nat) : a ≤ l.foldl max a ∧ (∀ x ∈ l, x ≤ l.foldl max a) ∧ (l.foldl max a = a ∨ l.foldl max a ∈ l) := by
  induction l generalizing a with
  | nil => simp
  | cons x l ih =>
    obtain ⟨h1, h2, h3⟩ := ih (max a x)
    simp only [List.foldl_cons]
    refine ⟨by omega, ?_, ?_⟩
    · intro y hy
      rcases List.mem_cons.1 hy with rfl | hy
      · omega
      · exact h2 y hy
    · rcases h3 with h3 | h3
      · rcases Nat.le_total a x with h | h
        · right
          rw [h3, Nat.max_eq_right h]
          exact List.mem_cons_self
        · left
          rw [h3, Nat.max_eq_left h]
      · exact .inr (List.mem_cons_of_mem _ h3)

/-- **C85** (partial) The peak is the largest of the memory of the process at the start and the memory used at all samples.

Missing: see `C85_peak_violated`. -/
theorem C85_peak_partial (start : Nat) (samples : List Nat) :
    start ≤ peak start samples ∧ (∀ x ∈ samples, x ≤ peak start samples) ∧ (peak start samples = start ∨ peak start samples ∈ samples) := foldl_max samples start

example : peak 3 [5, 9, 2] = 9 := rfl

/-- **C85** (violated) There is no sample at the end, so the peak can be below the memory that is used then. -/
theorem C85_peak_violated (start used : Nat) (samples : List Nat) (h0 : start < used) (h : ∀ x ∈ samples, x < used) : peak start samples < used := by
  rcases (C85_peak_partial start samples).2.2 with h1 | h1
  · omega
  · exact h _ h1

example : peak 3 [5, 9, 2] < 20 := C85_peak_violated 3 20 [5, 9, 2] (by decide) (by decide)

/-- The binary prefixes, by power of 1024 (IEC 80000-13). -/
def IsPrefix (k : Nat) (u : String) : Prop :=
  k = 0 ∧ u = "" ∨ k = 1 ∧ u = "Ki" ∨ k = 2 ∧ u = "Mi" ∨ k = 3 ∧ u = "Gi" ∨ k = 4 ∧ u = "Ti" ∨ k = 5 ∧ u = "Pi" ∨ k = 6 ∧ u = "Ei" ∨ k = 7 ∧ u = "Zi" ∨ k = 8 ∧ u = "Yi"

/-- **C85** The number shown for a size, in its unit, is the size; it is below 1024, unless the unit is the largest, and at least 1, unless the unit is the smallest. -/
theorem C85_human (n : ℚ) : ∃ k, IsPrefix k (human units n).2 ∧ (human units n).1 * 1024 ^ k = n ∧ (k < 8 → |(human units n).1| < 1024) ∧ (0 < k → 1 ≤ |(human units n).1|) := by
  have key : ∀ (us : List String) (n : ℚ), ∃ k, k ≤ us.length ∧ (human us n).2 = (us ++ ["Yi"])[k]?.getD "" ∧ (human us n).1 * 1024 ^ k = n ∧
      (k < us.length → |(human us n).1| < 1024) ∧ (0 < k → 1 ≤ |(human us n).1|) := by
    intro us
    induction us with
    | nil => exact fun n => ⟨0, by simp [human]⟩
    | cons u us ih =>
      intro n
      by_cases h : |n| < 1024
      · exact ⟨0, by simp [human, h]⟩
      · obtain ⟨k, h1, h2, h3, h4, h5⟩ := ih (n / 1024)
        rw [human, if_neg h]
        refine ⟨k + 1, by simpa using h1, by simpa using h2, ?_, fun hk => h4 (by simpa using hk), fun _ => ?_⟩
        · rw [pow_succ, ← mul_assoc, h3]
          field_simp
        · rcases Nat.eq_zero_or_pos k with rfl | hk
          · rw [pow_zero, mul_one] at h3
            rw [h3, abs_div]
            rw [not_lt] at h
            rw [show |(1024 : ℚ)| = 1024 by norm_num, le_div_iff₀ (by norm_num)]
            linarith
          · exact h5 hk
  obtain ⟨k, h1, h2, h⟩ := key units n
  refine ⟨k, ?_, h⟩
  rw [h2]
  have h1 : k ≤ 8 := h1
  interval_cases k <;> simp [IsPrefix, units]

example : human units 1536 = (3 / 2, "Ki") := by
  simp only [units, human]
  norm_num

end Verif.Runner
