import Verif.Fmt.Spec
import Mathlib.Tactic.Common
import Mathlib.Data.List.Forall2

/-!
# Lemmas for formats and compression
-/
namespace Verif.Fmt

variable {κ : Type}

theorem isShuffle_iff (c : Val) : isShuffle c = true ↔ Shuffles c := by
  unfold isShuffle Shuffles h5filter
  simp [or_assoc]

theorem unpack_ok (o : Opts) (b d : Val) : unpack o = .ok (b, d) ↔ o = .seq [b, d] := by
  unfold unpack
  constructor
  · intro h
    split at h
    · simp only [Except.ok.injEq, Prod.mk.injEq] at h
      obtain ⟨rfl, rfl⟩ := h
      rfl
    · simp at h
    · simp at h
  · rintro rfl
    rfl

theorem shuffles_truthy (c : Val) (h : Shuffles c) : c.truthy = true := by
  rcases h with rfl | rfl | rfl <;> decide

theorem shuffles_ne (c : Val) (h : Shuffles c) : c ≠ .str "gzip" ∧ c ≠ .none := by
  rcases h with rfl | rfl | rfl <;> decide

/-- HDF5 with the filter. -/
theorem hdf5_shuffle (e : Env) (he : e.enabled = true) (c : Val) (hc : Shuffles c) (b d : Val) :
    hdf5 (κ := κ) e c (.seq [b, d]) none =
      .ok (some (.num 32008, .seq [if b = .none then .num 0 else b, if d = .str "2" ∨ d = .str "lz4" then .num 2 else d])) := by
  unfold hdf5
  rw [he, (isShuffle_iff c).2 hc]
  simp [unpack, h5filter, h5lz4]

theorem hdf5_plain (e : Env) (c : Val) (o : Opts) (h : ¬ (e.enabled = true ∧ Shuffles c)) (h' : ¬ (c = .str "bitshuffle" ∧ e.enabled = false)) :
    hdf5 (κ := κ) e c o none = .ok (if c = .none then none else some (c, o)) := by
  have h1 : (e.enabled && isShuffle c) = false := by
    rw [← Bool.not_eq_true, Bool.and_eq_true, isShuffle_iff]
    exact h
  unfold hdf5
  rw [h1]
  simp only [Option.isSome_none, Bool.false_eq_true, if_false, if_neg h']
  split <;> simp_all

theorem zarr_shuffle (e : Env) (he : e.enabled = true) (c : Val) (hc : Shuffles c) (o : Opts) :
    zarr (κ := κ) e c o none =
      match unpack o with
      | .error x => .error x
      | .ok (b, d) =>
        match toInt e (if b = .none then .num 0 else b) with
        | .error x => .error x
        | .ok n => .ok (.blosc (if d = .num 2 ∨ d = .str "2" then .str "lz4" else d) n) := by
  unfold zarr
  rw [he, (isShuffle_iff c).2 hc, shuffles_truthy c hc]
  simp only [Option.isSome_none, Bool.false_and, Bool.false_eq_true, if_false, if_true, Bool.true_eq_false, if_neg (shuffles_ne c hc).1]
  rfl

theorem toInt_ok (e : Env) (b : Val) : (∃ n, toInt e (if b = .none then .num 0 else b) = .ok n) ↔ IsSize e b := by
  unfold IsSize
  cases b with
  | none => simp [toInt]
  | num n => simp [toInt]
  | str s =>
    simp only [reduceCtorEq, if_false, toInt, false_or, exists_const]
    cases h : e.intOf s with
    | none => simp [h]
    | some n => simp [h]

/-- The last entry for a key wins, and the keys do not interfere. -/
theorem foldl_chosen (l : List Entry) : ∀ own, Chosen own l (l.foldl setEntry own) := by
  have key : ∀ (l : List Entry) own,
      ((l.foldl setEntry own).chunks = own.chunks ∧ (∀ v, .chunks v ∉ l) ∨ .chunks (l.foldl setEntry own).chunks ∈ l) ∧
      ((l.foldl setEntry own).comp = own.comp ∧ (∀ v, .comp v ∉ l) ∨ .comp (l.foldl setEntry own).comp ∈ l) ∧
      ((l.foldl setEntry own).opts = own.opts ∧ (∀ v, .opts v ∉ l) ∨ .opts (l.foldl setEntry own).opts ∈ l) := by
    intro l
    induction l with
    | nil => intro own; simp
    | cons x l ih =>
      intro own
      obtain ⟨h1, h2, h3⟩ := ih (setEntry own x)
      rw [List.foldl_cons]
      cases x <;> simp only [setEntry] at h1 h2 h3 ⊢ <;>
        refine ⟨?_, ?_, ?_⟩ <;>
        first
          | (rcases h1 with ⟨h, h'⟩ | h
             · first
                | (left; exact ⟨h, by simpa using h'⟩)
                | (right; rw [h]; exact List.mem_cons_self)
             · right; exact List.mem_cons_of_mem _ h)
          | (rcases h2 with ⟨h, h'⟩ | h
             · first
                | (left; exact ⟨h, by simpa using h'⟩)
                | (right; rw [h]; exact List.mem_cons_self)
             · right; exact List.mem_cons_of_mem _ h)
          | (rcases h3 with ⟨h, h'⟩ | h
             · first
                | (left; exact ⟨h, by simpa using h'⟩)
                | (right; rw [h]; exact List.mem_cons_self)
             · right; exact List.mem_cons_of_mem _ h)
  exact fun own => key l own

/-- The entries of the dictionary, one after the other, seen from one dataset. -/
theorem override_foldl (e : Env) (l : List (String × List Entry)) : ∀ sets : List (String × Setting),
    l.foldl (override e) sets =
      sets.map fun p => (p.1, (l.filter fun d => d.1 == p.1).foldl (fun s d => shorthand e (d.2.foldl setEntry s)) p.2) := by
  induction l with
  | nil => intro sets; simp
  | cons d l ih =>
    intro sets
    rw [List.foldl_cons, ih]
    unfold override
    rw [List.map_map]
    apply List.map_congr_left
    intro p _
    by_cases h : p.1 = d.1
    · simp [h]
    · have h' : ¬ d.1 = p.1 := fun e => h e.symm
      simp [h, h']

end Verif.Fmt
