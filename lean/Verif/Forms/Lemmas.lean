import Verif.Forms.Spec
import Mathlib.Tactic.Common

/-!
# Lemmas on functions of many times
-/
namespace Verif.Forms

open Verif.Stellar (Sky Obs pmod rint stellarSecond siderealSecond)

variable {α : Type}

def Full (ps : List α) (g : α → ℚ) (a : List ℚ) : Prop := a = ps.map g

/-- An array that stands for the values: all of them, or one for all. -/
def Rep (ps : List α) (g : α → ℚ) (a : List ℚ) : Prop := a = ps.map g ∨ ∃ x, a = [x] ∧ ∀ p ∈ ps, g p = x

theorem Full.rep {ps : List α} {g : α → ℚ} {a : List ℚ} (h : Full ps g a) : Rep ps g a := .inl h

theorem Full.map {ps : List α} {g : α → ℚ} {a : List ℚ} (h : Full ps g a) (f : ℚ → ℚ) : Full ps (fun p => f (g p)) (a.map f) := by
  unfold Full at *
  rw [h, List.map_map]
  rfl

theorem Rep.map {ps : List α} {g : α → ℚ} {a : List ℚ} (h : Rep ps g a) (f : ℚ → ℚ) : Rep ps (fun p => f (g p)) (a.map f) := by
  rcases h with h | ⟨x, h, hx⟩
  · exact .inl (Full.map h f)
  · refine .inr ⟨f x, by rw [h]; rfl, fun p hp => by show f (g p) = f x; rw [hx p hp]⟩

theorem Rep.ne_nil {ps : List α} {g : α → ℚ} {a : List ℚ} (h : Rep ps g a) (hp : ps ≠ []) : a ≠ [] := by
  rcases h with h | ⟨x, h, -⟩
  · rw [h]
    simpa using hp
  · rw [h]
    simp

theorem bc_same (f : ℚ → ℚ → ℚ) (a b : List ℚ) (h : a.length = b.length) : bc f a b = .ok (List.zipWith f a b) := by
  unfold bc
  rw [if_pos h]

theorem bc_left (f : ℚ → ℚ → ℚ) (x : ℚ) (b : List ℚ) : bc f [x] b = .ok (b.map (f x)) := by
  match b with
  | [] => rfl
  | [y] => rfl
  | y :: z :: b => rfl

theorem bc_right (f : ℚ → ℚ → ℚ) (a : List ℚ) (y : ℚ) : bc f a [y] = .ok (a.map (f · y)) := by
  match a with
  | [] => rfl
  | [x] => rfl
  | x :: z :: a => rfl

theorem zipWith_maps (f : ℚ → ℚ → ℚ) (ps : List α) (g h : α → ℚ) :
    List.zipWith f (ps.map g) (ps.map h) = ps.map fun p => f (g p) (h p) := by
  induction ps with
  | nil => rfl
  | cons p ps ih => simp [ih]

theorem bc_full (f : ℚ → ℚ → ℚ) (ps : List α) (g h : α → ℚ) (a b : List ℚ) (ha : Rep ps g a) (hb : Rep ps h b)
    (hf : Full ps g a ∨ Full ps h b) : bc f a b = .ok (ps.map fun p => f (g p) (h p)) := by
  rcases ha with ha | ⟨x, ha, hx⟩
  · rcases hb with hb | ⟨y, hb, hy⟩
    · rw [ha, hb, bc_same _ _ _ (by simp), zipWith_maps]
    · rw [ha, hb, bc_right, List.map_map]
      congr 1
      exact List.map_congr_left fun p hp => by simp [hy p hp]
  · rcases hb with hb | ⟨y, hb, hy⟩
    · rw [ha, hb, bc_left, List.map_map]
      congr 1
      exact List.map_congr_left fun p hp => by simp [hx p hp]
    · rcases hf with hf | hf
      · rw [hf, hb, bc_right, List.map_map]
        congr 1
        exact List.map_congr_left fun p hp => by simp [hy p hp]
      · rw [ha, hf, bc_left, List.map_map]
        congr 1
        exact List.map_congr_left fun p hp => by simp [hx p hp]

theorem timeAttr_ok (attr : ℚ → ℚ) (l : List ℚ) (h : l ≠ []) : timeAttr attr l = .ok (l.map attr) := by
  unfold timeAttr
  rw [if_neg h]

/-- The shift of two times. -/
def shift (k : Sky) (a b : ℚ) : ℚ := k.tt b - k.tt a - (b - a)

def crazy (k : Sky) (a b : ℚ) : Bool := decide (1 / 100 < |shift k a b - rint (shift k a b)|)

theorem leapBody_eq (k : Sky) (ps : List α) (hp : ps ≠ []) (g h : α → ℚ) (a b : List ℚ) (ha : Rep ps g a) (hb : Rep ps h b)
    (hf : Full ps g a ∨ Full ps h b) :
    leapBody k a b = if ps.any (fun p => crazy k (g p) (h p)) then .error .runtimeError
      else .ok (ps.map fun p => ((rint (shift k (g p) (h p)) : ℤ) : ℚ)) := by
  unfold leapBody
  rw [bc_full _ ps h g b a hb ha hf.symm, timeAttr_ok _ _ (ha.ne_nil hp), timeAttr_ok _ _ (hb.ne_nil hp)]
  simp only
  rw [bc_full _ ps _ _ _ _ (hb.map k.tt) (ha.map k.tt) (hf.symm.imp (Full.map · k.tt) (Full.map · k.tt))]
  simp only
  rw [bc_full _ ps _ _ _ _ (Full.rep rfl) (Full.rep rfl) (.inl rfl)]
  simp only [List.any_map, List.map_map, Function.comp_def]
  rfl

theorem mapM_check {f : α → Except Stellar.PyErr ℚ} (bad : α → Bool) (val : α → ℚ)
    (hf : ∀ p, f p = if bad p then .error .runtimeError else .ok (val p)) (ps : List α) :
    each f ps = if ps.any bad then .error .runtimeError else .ok (.arr (ps.map val)) := by
  have key : ps.mapM f = if ps.any bad then .error .runtimeError else .ok (ps.map val) := by
    induction ps with
    | nil => rfl
    | cons p ps ih =>
      rw [List.mapM_cons, ih, hf p]
      cases hb : bad p <;> cases ha : ps.any bad <;> simp [hb, ha] <;> rfl
  unfold each
  rw [key]
  by_cases h : ps.any bad = true
  · simp only [h, if_true]
  · simp only [h]
    rfl

theorem one_check (bad : Bool) (val : ℚ) :
    one (if bad then .error .runtimeError else .ok val) = if bad then .error .runtimeError else .ok (.num val) := by
  cases bad <;> rfl

theorem stellar_leaps (k : Sky) (a b : ℚ) :
    Stellar.leapSecondsBetween k a b = if crazy k a b then .error .runtimeError else .ok (rint (shift k a b)) := by
  unfold Stellar.leapSecondsBetween crazy shift
  simp only [decide_eq_true_eq]

/-- The time that is tried. -/
def guess (k : Sky) (era t0 : ℚ) : ℚ := t0 + pmod (era - Stellar.unixToEra k t0) 360 * 240 * stellarSecond

theorem stellar_era (k : Sky) (era t0 : ℚ) :
    Stellar.eraToUnix k era t0 = if crazy k t0 (guess k era t0) then .error .runtimeError
      else .ok (guess k era t0 - rint (shift k t0 (guess k era t0))) := by
  unfold Stellar.eraToUnix
  simp only [stellar_leaps]
  have hg : t0 + pmod (era - Stellar.unixToEra k t0) 360 * 240 * stellarSecond = guess k era t0 := rfl
  simp only [hg]
  cases crazy k t0 (guess k era t0) <;> rfl

theorem isEmpty_false {l : List ℚ} (h : l ≠ []) : l.isEmpty = false := by
  cases l with
  | nil => exact absurd rfl h
  | cons x l => rfl

/-- `scalarize` with one array. -/
theorem scalarize_arr (body : List (List ℚ) → Except PyErr (List ℚ)) (l : List ℚ) (h : l ≠ []) :
    scalarize body [.arr l] = match body [l] with
      | .error e => .error e
      | .ok r => .ok (.arr r) := by
  simp only [scalarize, makeArrays, makeArray, List.all_cons, List.all_nil, isEmpty_false h, Bool.false_and, Bool.false_eq_true,
    if_false, List.map_cons, List.map_nil]
  cases body [l] <;> rfl

theorem unixToEra_arr (k : Sky) (l : List ℚ) : unixToEra k (.arr l) = .ok (.arr (l.map (Stellar.unixToEra k))) := by
  unfold unixToEra
  by_cases h : l = []
  · subst h; rfl
  · rw [scalarize_arr _ _ h]
    simp only [timeAttr_ok _ _ h]
    rfl

theorem leap_arr (k : Sky) (a b : List ℚ) (h : a ≠ [] ∨ b ≠ []) :
    leapSecondsBetween k (.arr a) (.arr b) = match leapBody k a b with
      | .error e => .error e
      | .ok r => .ok (.arr r) := by
  have he : (a.isEmpty && (b.isEmpty && true)) = false := by
    rcases h with h | h
    · rw [isEmpty_false h]; rfl
    · rw [isEmpty_false h]; simp
  simp only [leapSecondsBetween, scalarize, makeArrays, makeArray, List.all_cons, List.all_nil, he, Bool.false_eq_true, if_false,
    List.map_cons, List.map_nil, Bool.false_and]
  cases leapBody k a b <;> rfl

theorem eraBody_eq (k : Sky) (ps : List α) (hp : ps ≠ []) (g h : α → ℚ) (a b : List ℚ) (ha : Rep ps g a) (hb : Rep ps h b)
    (hf : Full ps g a ∨ Full ps h b) :
    eraBody k a b = if ps.any (fun p => crazy k (h p) (guess k (g p) (h p))) then .error .runtimeError
      else .ok (ps.map fun p => guess k (g p) (h p) - rint (shift k (h p) (guess k (g p) (h p)))) := by
  unfold eraBody
  rw [unixToEra_arr]
  simp only [V.list]
  rw [bc_full _ ps _ _ _ _ ha (hb.map _) (hf.imp id (Full.map · _))]
  simp only
  rw [bc_full _ ps _ _ _ _ hb (Full.rep rfl) (.inr rfl)]
  simp only
  have hg : (fun p => h p + pmod (g p - Stellar.unixToEra k (h p)) 360 * 240 * stellarSecond) = fun p => guess k (g p) (h p) := rfl
  rw [hg, leap_arr _ _ _ (.inl (hb.ne_nil hp)), leapBody_eq k ps hp h (fun p => guess k (g p) (h p)) _ _ hb (Full.rep rfl) (.inr rfl)]
  by_cases hc : ps.any (fun p => crazy k (h p) (guess k (g p) (h p))) = true
  · rw [if_pos hc, if_pos hc]
  · rw [if_neg hc, if_neg hc]
    simp only
    exact bc_full _ ps (fun p => guess k (g p) (h p)) _ _ _ (Full.rep rfl) (Full.rep rfl) (.inl rfl)

theorem bc_error (f : ℚ → ℚ → ℚ) (a b : List ℚ) (h : a.length ≠ b.length) (ha : a.length ≠ 1) (hb : b.length ≠ 1) :
    bc f a b = .error .valueError := by
  unfold bc
  rw [if_neg h]
  match a, b with
  | [], [] => simp at h
  | [], [y] => simp at hb
  | [], y :: z :: b => rfl
  | [x], b => simp at ha
  | x :: w :: a, [] => rfl
  | x :: w :: a, [y] => simp at hb
  | x :: w :: a, y :: z :: b => rfl

end Verif.Forms
