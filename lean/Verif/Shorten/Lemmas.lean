import Verif.Shorten.Spec
import Mathlib.Data.List.Nodup
import Mathlib.Tactic.Ring
import Mathlib.Tactic.FieldSimp
import Mathlib.Tactic.Linarith

/-!
# Lemmas for the truncation of datasets
-/
namespace Verif.Shorten

theorem along_cons (a : Str) (ds : List Str) (k : Nat) (j : List Nat) (b : Str) :
    along (a :: ds) (k :: j) b = if b = a then some k else along ds j b := by
  unfold along
  by_cases h : b = a
  · subst h
    rw [if_pos rfl, List.idxOf_cons_self]
    rfl
  · rw [if_neg h, List.idxOf_cons_ne _ (fun e => h e.symm)]
    rfl

theorem pick_along (waxes ds : List Str) (j : List Nat) (hl : j.length = ds.length) (hn : ds.Nodup) :
    (pick waxes ds j).map some = (ds.filter (waxes.contains ·)).map (along ds j) := by
  induction ds generalizing j with
  | nil =>
    cases j with
    | nil => rfl
    | cons k j => cases hl
  | cons a ds ih =>
    cases j with
    | nil => cases hl
    | cons k j =>
      rw [List.nodup_cons] at hn
      have hrest : (ds.filter (waxes.contains ·)).map (along ds j) = (ds.filter (waxes.contains ·)).map (along (a :: ds) (k :: j)) := by
        apply List.map_congr_left
        intro b hb
        rw [along_cons, if_neg]
        rintro rfl
        exact hn.1 (List.mem_of_mem_filter hb)
      unfold pick
      by_cases hc : waxes.contains a = true
      · rw [if_pos hc, List.filter_cons_of_pos hc, List.map_cons, List.map_cons, along_cons, if_pos rfl,
          ih j (by simpa using hl) hn.2, hrest]
      · rw [if_neg hc, List.filter_cons_of_neg hc, ih j (by simpa using hl) hn.2, hrest]

theorem filter_sublist (waxes ds : List Str) (hs : waxes.Sublist ds) (hn : ds.Nodup) : ds.filter (waxes.contains ·) = waxes := by
  induction hs with
  | slnil => rfl
  | @cons l₁ l₂ a hs ih =>
    rw [List.nodup_cons] at hn
    rw [List.filter_cons_of_neg, ih hn.2]
    intro h
    exact hn.1 (hs.subset (by simpa using h))
  | @cons_cons l₁ l₂ a hs ih =>
    rw [List.nodup_cons] at hn
    rw [List.filter_cons_of_pos (by simp)]
    congr 1
    have : l₂.filter ((a :: l₁).contains ·) = l₂.filter (l₁.contains ·) := by
      apply List.filter_congr
      intro b hb
      have hne : b ≠ a := by
        rintro rfl
        exact hn.1 hb
      simp [hne]
    rw [this]
    exact ih hn.2

/-- The shape with length-one axes. -/
def padded (waxes : List Str) : List Str → List Nat → List Nat
  | a :: ds, n :: s => (if waxes.contains a then n else 1) :: padded waxes ds s
  | _, _ => []

theorem expandShape_eq (waxes ds : List Str) (s : List Nat) (hl : s.length = ds.length) :
    expandShape waxes ds (pick waxes ds s) = .ok (padded waxes ds s) := by
  induction ds generalizing s with
  | nil =>
    cases s with
    | nil => rfl
    | cons k s => cases hl
  | cons a ds ih =>
    cases s with
    | nil => cases hl
    | cons n s =>
      unfold expandShape pick padded
      by_cases hc : waxes.contains a = true
      · rw [if_pos hc, if_pos hc, if_pos hc]
        simp only [ih s (by simpa using hl)]
      · rw [if_neg hc, if_neg hc, if_neg hc]
        simp only [ih s (by simpa using hl)]

theorem padded_length (waxes ds : List Str) (s : List Nat) (hl : s.length = ds.length) : (padded waxes ds s).length = s.length := by
  induction ds generalizing s with
  | nil =>
    cases s with
    | nil => rfl
    | cons k s => cases hl
  | cons a ds ih =>
    cases s with
    | nil => cases hl
    | cons n s => simp [padded, ih s (by simpa using hl)]

theorem padded_fits (waxes ds : List Str) (s : List Nat) (hl : s.length = ds.length) : fits (padded waxes ds s) s = true := by
  induction ds generalizing s with
  | nil =>
    cases s with
    | nil => rfl
    | cons k s => cases hl
  | cons a ds ih =>
    cases s with
    | nil => cases hl
    | cons n s =>
      unfold padded fits
      rw [ih s (by simpa using hl)]
      split <;> simp

theorem pick_squash (waxes ds : List Str) (s i : List Nat) (hl : s.length = ds.length) (hi : InShape i s) :
    pick waxes ds (squash (padded waxes ds s) i) = pick waxes ds i := by
  induction ds generalizing s i with
  | nil =>
    cases s with
    | nil => cases hi; rfl
    | cons k s => cases hl
  | cons a ds ih =>
    cases s with
    | nil => cases hl
    | cons n s =>
      cases hi with
      | @cons k _ i _ h1 h2 =>
        unfold padded squash pick
        rw [ih s i (by simpa using hl) h2]
        by_cases hc : waxes.contains a = true
        · rw [if_pos hc, if_pos hc, if_pos hc]
          congr 1
          split
          · omega
          · rfl
        · rw [if_neg hc, if_neg hc]

/-- What a step leaves alone. -/
theorem step_other (T : Trunc) (params : Str → Option Params) (b b' : Box) (n a : Str) (h : step T params b n = .ok b')
    (ha : a ≠ n ∨ params a = none ∨ b a = none) : b' a = b a := by
  unfold step at h
  cases hp : params n with
  | none => rw [hp] at h; rw [← Except.ok.inj h]
  | some p =>
    rw [hp] at h
    simp only at h
    cases hb : b n with
    | none => rw [hb] at h; rw [← Except.ok.inj h]
    | some d =>
      rw [hb] at h
      simp only at h
      have hne : a ≠ n := by
        rcases ha with ha | ha | ha
        · exact ha
        · rintro rfl; rw [hp] at ha; cases ha
        · rintro rfl; rw [hb] at ha; cases ha
      split at h
      · cases h
      · rw [← Except.ok.inj h]
        exact if_neg hne

theorem steps_other (T : Trunc) (params : Str → Option Params) (l : List Str) (b b' : Box) (a : Str)
    (h : steps T params b l = .ok b') (ha : a ∉ l ∨ params a = none ∨ b a = none) : b' a = b a := by
  induction l generalizing b with
  | nil => rw [← Except.ok.inj h]
  | cons n l ih =>
    unfold steps at h
    cases h1 : step T params b n with
    | error e => rw [h1] at h; cases h
    | ok b1 =>
      rw [h1] at h
      have e1 : b1 a = b a := step_other T params b b1 n a h1 (by
        rcases ha with ha | ha | ha
        · exact .inl fun e => ha (e ▸ List.mem_cons_self)
        · exact .inr (.inl ha)
        · exact .inr (.inr ha))
      rw [ih b1 h (by
        rcases ha with ha | ha | ha
        · exact .inl fun e => ha (List.mem_cons_of_mem _ e)
        · exact .inr (.inl ha)
        · exact .inr (.inr (by rw [e1, ha]))), e1]

/-- The step for a dataset of the list. -/
theorem steps_at (T : Trunc) (params : Str → Option Params) (l : List Str) (hn : l.Nodup) (b b' : Box) (a : Str)
    (h : steps T params b l = .ok b') (ha : a ∈ l) :
    ∃ c c', step T params c a = .ok c' ∧ c a = b a ∧ c' a = b' a ∧ ∀ w, params w = none → c w = b w := by
  induction l generalizing b with
  | nil => cases ha
  | cons n l ih =>
    rw [List.nodup_cons] at hn
    unfold steps at h
    cases h1 : step T params b n with
    | error e => rw [h1] at h; cases h
    | ok b1 =>
      rw [h1] at h
      simp only at h
      by_cases hna : a = n
      · subst hna
        exact ⟨b, b1, h1, rfl, (steps_other T params l b1 b' a h (.inl hn.1)).symm, fun _ _ => rfl⟩
      · obtain ⟨c, c', q1, q2, q3, q4⟩ := ih hn.2 b1 h ((List.mem_cons.1 ha).resolve_left hna)
        exact ⟨c, c', q1, by rw [q2, step_other T params b b1 n a h1 (.inl hna)], q3, fun w hw => by
          rw [q4 w hw, step_other T params b b1 n w h1 (.inr (.inl hw))]⟩

end Verif.Shorten
