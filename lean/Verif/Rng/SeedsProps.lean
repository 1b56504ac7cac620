import Verif.Rng.Seeds
import Mathlib.Tactic.Common
import Mathlib.Tactic.Ring
import Mathlib.Tactic.Linarith

/-!
# C95: seeds of random tasks
-/
namespace Verif.Rng

/-! ### The checksum -/

/-- The sums of Adler-32 before they are reduced: 1 plus the bytes, and the sum of these sums. -/
def sums : Nat × Nat → List Nat → Nat × Nat
  | s, [] => s
  | s, x :: l => sums (s.1 + x, s.2 + s.1 + x) l

theorem sums_append (s : Nat × Nat) (l m : List Nat) : sums s (l ++ m) = sums (sums s l) m := by
  induction l generalizing s with
  | nil => rfl
  | cons x l ih => exact ih _

theorem foldl_adler (l : List Nat) (s : Nat × Nat) (t : Nat × Nat) (h1 : t.1 = s.1 % 65521) (h2 : t.2 = s.2 % 65521) :
    l.foldl adlerStep t = ((sums s l).1 % 65521, (sums s l).2 % 65521) := by
  induction l generalizing s t with
  | nil =>
    rw [List.foldl_nil, sums, ← h1, ← h2]
  | cons x l ih =>
    rw [List.foldl_cons, sums]
    apply ih
    · simp only [adlerStep, h1]
      omega
    · simp only [adlerStep, h1, h2]
      omega

/-- Adler-32 is the two sums, each reduced modulo 65521. -/
theorem adler32_eq (l : List Nat) : adler32 l = (sums (1, 0) l).2 % 65521 * 65536 + (sums (1, 0) l).1 % 65521 := by
  simp only [adler32]
  rw [foldl_adler l (1, 0) (1, 0) rfl rfl]

theorem sums_fst (s : Nat × Nat) (l : List Nat) : (sums s l).1 = s.1 + l.sum := by
  induction l generalizing s with
  | nil => simp [sums]
  | cons x l ih =>
    rw [sums, ih, List.sum_cons]
    omega

theorem sum_le (l : List Nat) (h : ∀ x ∈ l, x < 256) : l.sum ≤ 255 * l.length := by
  induction l with
  | nil => simp
  | cons x l ih =>
    rw [List.sum_cons, List.length_cons]
    have := h x List.mem_cons_self
    have := ih fun y hy => h y (List.mem_cons_of_mem _ hy)
    omega

theorem adler_pos (l : List Nat) (h : ∀ x ∈ l, x < 256) (hl : l.length ≤ 256) : 0 < adler32 l := by
  rw [adler32_eq, sums_fst]
  have := sum_le l h
  rw [Nat.mod_eq_of_lt (a := (1, 0).1 + l.sum) (by simp only; omega)]
  simp only
  omega

/-! ### Properties -/

/-- **C95** All processes of a job use the same seed of the job; a run with this seed in the configuration uses the same seeds as the run in which it was drawn, whatever is drawn then. The attribute `seed` is what was configured. -/
theorem C95_repeat (cls : List Nat) (cfg : Option Int) (entropy entropy' : Nat → Int) :
    ∃ seed, (∀ s, cfg = some s → seed = s) ∧ (∀ rank, (RTask.make cls cfg entropy rank).used = localSeed seed cls rank) ∧
      (∀ rank, (RTask.make cls (some seed) entropy' rank).used = (RTask.make cls cfg entropy rank).used) ∧
      ∀ rank, (RTask.make cls cfg entropy rank).seed = cfg := by
  refine ⟨jobSeed cfg entropy, ?_, fun _ => rfl, fun _ => rfl, fun _ => rfl⟩
  rintro s rfl
  rfl

example : (RTask.make [84] (some 7) (fun r => r) 3).used = (RTask.make [84] none (fun r => 7 + r) 3).used := by
  obtain ⟨seed, -, -, h, -⟩ := C95_repeat [84] none (fun r => 7 + r) (fun r => r)
  have h1 := h 3
  have h2 := h 0
  simp only [RTask.make, jobSeed, localSeed] at h1 h2 ⊢
  omega

/-- **C95** The processes of a job have different seeds, if the name of the class has at most 256 bytes. -/
theorem C95_processes (cls : List Nat) (hb : ∀ x ∈ cls, x < 256) (hl : cls.length ≤ 256) (cfg : Option Int) (entropy : Nat → Int) (r s : Nat) (hrs : r ≠ s) :
    (RTask.make cls cfg entropy r).used ≠ (RTask.make cls cfg entropy s).used := by
  have hp := adler_pos cls hb hl
  simp only [RTask.make, localSeed]
  intro h
  have h1 : ((r : Int) + 1) * (adler32 cls : Int) = ((s : Int) + 1) * (adler32 cls : Int) := by linarith
  have h2 := Int.eq_of_mul_eq_mul_right (by omega) h1
  omega

example : (RTask.make [84, 97] (some 5) (fun _ => 0) 0).used ≠ (RTask.make [84, 97] (some 5) (fun _ => 0) 1).used :=
  C95_processes [84, 97] (by decide) (by decide) _ _ 0 1 (by decide)

/-- **C95** On a process, tasks of different classes have different seeds for the same seed of the configuration if their names have different sums, or different sums of sums, of at most 256 bytes.
Missing: tasks of one class, and classes with the same checksum. -/
theorem C95_classes_partial (cls cls' : List Nat) (hb : ∀ x ∈ cls, x < 256) (hb' : ∀ x ∈ cls', x < 256) (hl : cls.length ≤ 256) (hl' : cls'.length ≤ 256)
    (hs : cls.sum ≠ cls'.sum ∨ (sums (1, 0) cls).2 % 65521 ≠ (sums (1, 0) cls').2 % 65521) (seed : Int) (entropy entropy' : Nat → Int) (r : Nat) :
    (RTask.make cls (some seed) entropy r).used ≠ (RTask.make cls' (some seed) entropy' r).used := by
  simp only [RTask.make, localSeed, jobSeed]
  intro h
  have h1 : ((r : Int) + 1) * (adler32 cls : Int) = ((r : Int) + 1) * (adler32 cls' : Int) := by linarith
  have h2 := Int.eq_of_mul_eq_mul_left (by omega) h1
  have h3 : adler32 cls = adler32 cls' := by exact_mod_cast h2
  rw [adler32_eq, adler32_eq, sums_fst, sums_fst] at h3
  have k1 := sum_le cls hb
  have k2 := sum_le cls' hb'
  rw [Nat.mod_eq_of_lt (a := (1, 0).1 + cls.sum) (by simp only; omega), Nat.mod_eq_of_lt (a := (1, 0).1 + cls'.sum) (by simp only; omega)] at h3
  simp only at h3
  omega

example : (RTask.make [84, 97] (some 5) (fun _ => 0) 2).used ≠ (RTask.make [84, 98] (some 5) (fun _ => 0) 2).used :=
  C95_classes_partial [84, 97] [84, 98] (by decide) (by decide) (by decide) (by decide) (.inl (by decide)) 5 _ _ 2

/-- **C95** (negation) Two tasks of one class with the same seed use the same seeds on all processes. -/
theorem C95_same_class_violated (cls : List Nat) (seed : Int) (entropy entropy' : Nat → Int) (r : Nat) :
    (RTask.make cls (some seed) entropy r).used = (RTask.make cls (some seed) entropy' r).used := rfl

example : (RTask.make [84] (some 5) (fun _ => 1) 0).used = (RTask.make [84] (some 5) (fun _ => 2) 0).used := C95_same_class_violated [84] 5 _ _ 0

/-- **C95** (negation) Classes whose names differ in three neighbouring letters, the outer ones by one up and the middle one by two down (as `Abcb` and `Acac`), have the same seeds on all processes. -/
theorem C95_checksum_violated (p q : List Nat) (x y z : Nat) (seed : Int) (entropy entropy' : Nat → Int) (r : Nat) :
    (RTask.make (p ++ [x, y + 2, z] ++ q) (some seed) entropy r).used = (RTask.make (p ++ [x + 1, y, z + 1] ++ q) (some seed) entropy' r).used := by
  have h : sums (1, 0) (p ++ [x, y + 2, z] ++ q) = sums (1, 0) (p ++ [x + 1, y, z + 1] ++ q) := by
    rw [sums_append, sums_append, sums_append (l := p ++ [x + 1, y, z + 1]), sums_append (l := p)]
    congr 1
    simp only [sums, Prod.mk.injEq]
    constructor <;> omega
  simp only [RTask.make, localSeed, jobSeed]
  rw [adler32_eq, adler32_eq, h]

/-- `m.Abcb` and `m.Acac` -/
example : (RTask.make [109, 46, 65, 98, 99, 98] (some 5) (fun _ => 0) 3).used = (RTask.make [109, 46, 65, 99, 97, 99] (some 5) (fun _ => 0) 3).used :=
  C95_checksum_violated [109, 46, 65] [] 98 97 98 5 _ _ 3

/-- **C95** (negation) A seed that is set on a task that exists, as documented for interactive use, is not used: the seed remains what was drawn. -/
theorem C95_later_violated (cls : List Nat) (entropy : Nat → Int) (seed : Int) (hs : seed ≠ entropy 0) (rank : Nat) :
    ((RTask.make cls none entropy rank).setSeed seed).seed = some seed ∧ ((RTask.make cls none entropy rank).setSeed seed).used ≠ localSeed seed cls rank := by
  refine ⟨rfl, ?_⟩
  simp only [RTask.setSeed, RTask.make, jobSeed, localSeed]
  omega

example : ((RTask.make [84] none (fun _ => 1) 0).setSeed 2).used ≠ localSeed 2 [84] 0 := (C95_later_violated [84] (fun _ => 1) 2 (by decide) 0).2

/-- **C95** (negation) Jobs with different seeds can share seeds: if the seeds differ by the checksum of the class, each process has the seed of its neighbour in the other job. -/
theorem C95_jobs_violated (cls : List Nat) (hb : ∀ x ∈ cls, x < 256) (hl : cls.length ≤ 256) (seed : Int) (entropy entropy' : Nat → Int) :
    ∃ seed', seed' ≠ seed ∧ ∀ r, (RTask.make cls (some seed') entropy r).used = (RTask.make cls (some seed) entropy' (r + 1)).used := by
  have := adler_pos cls hb hl
  refine ⟨seed + adler32 cls, by omega, fun r => ?_⟩
  simp only [RTask.make, jobSeed, localSeed]
  push_cast
  ring

example : ∃ seed', seed' ≠ 5 ∧ ∀ r, (RTask.make [84] (some seed') (fun _ => 0) r).used = (RTask.make [84] (some 5) (fun _ => 0) (r + 1)).used :=
  C95_jobs_violated [84] (by decide) (by decide) 5 _ _

end Verif.Rng
