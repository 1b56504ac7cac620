import Verif.Clock.Spec
import Mathlib.Tactic.Common
import Mathlib.Tactic.IntervalCases
import Mathlib.Tactic.Linarith
import Mathlib.Tactic.Ring
import Mathlib.Tactic.NormNum
import Mathlib.Tactic.FieldSimp

/-!
# Lemmas for dates and times
-/
namespace Verif.Clock

open Verif.Stellar (rint)

/-! ### The calendar -/

theorem isLeap_iff (y : Nat) : isLeap y = true ↔ Leap y := by
  unfold isLeap Leap
  simp only [Bool.and_eq_true, beq_iff_eq, Bool.or_eq_true, bne_iff_ne]
  omega

theorem daysInMonth_eq (y m : Nat) (h1 : 1 ≤ m) (h2 : m ≤ 12) : daysInMonth (isLeap y) m = monthLength y m := by
  unfold monthLength
  by_cases hl : Leap y
  · rw [(isLeap_iff y).2 hl, if_pos hl]
    interval_cases m <;> rfl
  · have : isLeap y = false := by rw [← Bool.not_eq_true, isLeap_iff]; exact hl
    rw [this, if_neg hl]
    interval_cases m <;> rfl

theorem daysBeforeYear_succ (y : Nat) (h : 1 ≤ y) : daysBeforeYear (y + 1) = daysBeforeYear y + if isLeap y then 366 else 365 := by
  have hl := isLeap_iff y
  unfold Leap at hl
  unfold daysBeforeYear
  obtain ⟨z, rfl⟩ : ∃ z, y = z + 1 := ⟨y - 1, by omega⟩
  simp only [Nat.add_sub_cancel]
  split
  · next h' => have := hl.1 h'; omega
  · next h' =>
    have : ¬ _ := fun h => h' (hl.2 h)
    omega

theorem daysBeforeYear_lt (y k : Nat) (h : 1 ≤ y) : daysBeforeYear y + 365 * k ≤ daysBeforeYear (y + k) := by
  induction k with
  | zero => simp
  | succ k ih =>
    rw [← Nat.add_assoc, daysBeforeYear_succ _ (by omega)]
    split <;> omega

theorem daysBeforeMonth_succ (l : Bool) (m : Nat) (h1 : 1 ≤ m) (h2 : m < 12) :
    daysBeforeMonth l (m + 1) = daysBeforeMonth l m + daysInMonth l m := by
  cases l <;> interval_cases m <;> rfl

theorem daysBeforeMonth_mono (l : Bool) (m m' : Nat) (h1 : 1 ≤ m) (h2 : m < m') (h3 : m' ≤ 12) :
    daysBeforeMonth l m + daysInMonth l m ≤ daysBeforeMonth l m' := by
  have hm : m < 12 := by omega
  cases l <;> interval_cases m <;> interval_cases m' <;> decide

theorem daysBeforeMonth_last (l : Bool) (m : Nat) (h1 : 1 ≤ m) (h2 : m ≤ 12) :
    daysBeforeMonth l m + daysInMonth l m ≤ if l then 366 else 365 := by
  cases l <;> interval_cases m <;> decide

/-- Later dates have larger numbers. -/
theorem ymd2ord_lt (y m d y' m' d' : Nat) (hy : 1 ≤ y) (hm : 1 ≤ m ∧ m ≤ 12) (hm' : 1 ≤ m' ∧ m' ≤ 12)
    (hd : d ≤ daysInMonth (isLeap y) m) (hd' : 1 ≤ d') (h : y < y' ∨ (y = y' ∧ (m < m' ∨ (m = m' ∧ d < d')))) :
    ymd2ord y m d < ymd2ord y' m' d' := by
  unfold ymd2ord
  rcases h with h | ⟨rfl, h | ⟨rfl, h⟩⟩
  · have h1 := daysBeforeMonth_last (isLeap y) m hm.1 hm.2
    have h2 := daysBeforeYear_succ y hy
    have h3 := daysBeforeYear_lt (y + 1) (y' - (y + 1)) (by omega)
    rw [show y + 1 + (y' - (y + 1)) = y' by omega] at h3
    omega
  · have h1 := daysBeforeMonth_mono (isLeap y) m m' hm.1 h hm'.2
    omega
  · omega

/-- A date that exists. -/
def Date (y m d : Nat) : Prop := 1 ≤ y ∧ (1 ≤ m ∧ m ≤ 12) ∧ (1 ≤ d ∧ d ≤ daysInMonth (isLeap y) m)

theorem ymd2ord_inj (y m d y' m' d' : Nat) (h : Date y m d) (h' : Date y' m' d') (he : ymd2ord y m d = ymd2ord y' m' d') :
    y = y' ∧ m = m' ∧ d = d' := by
  obtain ⟨a1, a2, a3⟩ := h
  obtain ⟨b1, b2, b3⟩ := h'
  have h1 := ymd2ord_lt y m d y' m' d' a1 a2 b2 a3.2 b3.1
  have h2 := ymd2ord_lt y' m' d' y m d b1 b2 a2 b3.2 a3.1
  by_contra hne
  have : (y < y' ∨ (y = y' ∧ (m < m' ∨ (m = m' ∧ d < d')))) ∨ (y' < y ∨ (y' = y ∧ (m' < m ∨ (m' = m ∧ d' < d)))) := by
    omega
  rcases this with h | h
  · have := h1 h; omega
  · have := h2 h; omega

theorem monthDay_ok : ∀ l : Bool, ∀ n < 365,
    (1 ≤ (monthDay l n).1 ∧ (monthDay l n).1 ≤ 12) ∧ (1 ≤ (monthDay l n).2 ∧ (monthDay l n).2 ≤ daysInMonth l (monthDay l n).1) ∧
      daysBeforeMonth l (monthDay l n).1 + (monthDay l n).2 = n + 1 := by
  decide +kernel

theorem dby_eq (a b c d : Nat) (hb : b ≤ 3) (hc : c ≤ 24) (hd : d ≤ 3) :
    daysBeforeYear (a * 400 + 1 + b * 100 + c * 4 + d) = 146097 * a + 36524 * b + 1461 * c + 365 * d := by
  unfold daysBeforeYear
  have h0 : a * 400 + 1 + b * 100 + c * 4 + d - 1 = 400 * a + 100 * b + 4 * c + d := by omega
  have h4 : (400 * a + 100 * b + 4 * c + d) / 4 = 100 * a + 25 * b + c := by omega
  have h100 : (400 * a + 100 * b + 4 * c + d) / 100 = 4 * a + b := by omega
  have h400 : (400 * a + 100 * b + 4 * c + d) / 400 = a := by omega
  rw [h0, h4, h100, h400]
  omega

/-- The date with a number has that number. -/
theorem ord2ymd_ok (n : Nat) (h : 1 ≤ n) :
    Date (ord2ymd n).1 (ord2ymd n).2.1 (ord2ymd n).2.2 ∧ ymd2ord (ord2ymd n).1 (ord2ymd n).2.1 (ord2ymd n).2.2 = n := by
  unfold ord2ymd
  simp only
  obtain ⟨n, rfl⟩ : ∃ k, n = k + 1 := ⟨n - 1, by omega⟩
  simp only [Nat.add_sub_cancel]
  generalize ha : n / 146097 = a
  generalize hr1 : n % 146097 = r1
  generalize hb : r1 / 36524 = b
  generalize hr2 : r1 % 36524 = r2
  generalize hc : r2 / 1461 = c
  generalize hr3 : r2 % 1461 = r3
  generalize hd : r3 / 365 = d
  generalize hr4 : r3 % 365 = r4
  have hn : n = 146097 * a + r1 := by omega
  have h1 : r1 = 36524 * b + r2 := by omega
  have h2 : r2 = 1461 * c + r3 := by omega
  have h3 : r3 = 365 * d + r4 := by omega
  have b1 : r1 < 146097 := by omega
  have b2 : r2 < 36524 := by omega
  have b3 : r3 < 1461 := by omega
  have b4 : r4 < 365 := by omega
  have hb4 : b ≤ 4 := by omega
  have hc24 : c ≤ 24 := by omega
  have hd4 : d ≤ 4 := by omega
  clear ha hr1 hb hr2 hc hr3 hd hr4
  by_cases hlast : d = 4 ∨ b = 4
  · rw [if_pos hlast]
    simp only
    have hl : isLeap (a * 400 + 1 + b * 100 + c * 4 + d - 1) = true := by
      rw [isLeap_iff]
      unfold Leap
      omega
    refine ⟨⟨by omega, ⟨by omega, by omega⟩, ⟨by omega, ?_⟩⟩, ?_⟩
    · rw [hl]; decide
    · unfold ymd2ord
      rw [hl]
      have : daysBeforeMonth true 12 = 335 := rfl
      rw [this]
      rcases hlast with rfl | rfl
      · have hb3 : b ≤ 3 := by omega
        have e : a * 400 + 1 + b * 100 + c * 4 + 4 - 1 = a * 400 + 1 + b * 100 + c * 4 + 3 := by omega
        rw [e, dby_eq a b c 3 hb3 hc24 (Nat.le_refl _)]
        omega
      · have e : a * 400 + 1 + 4 * 100 + c * 4 + d - 1 = a * 400 + 1 + 3 * 100 + 24 * 4 + 3 := by omega
        rw [e, dby_eq a 3 24 3 (Nat.le_refl _) (Nat.le_refl _) (Nat.le_refl _)]
        omega
  · rw [if_neg hlast]
    have hlast1 : d ≠ 4 := fun h => hlast (.inl h)
    have hlast2 : b ≠ 4 := fun h => hlast (.inr h)
    have hl : (d == 3 && (c != 24 || b == 3)) = isLeap (a * 400 + 1 + b * 100 + c * 4 + d) := by
      rw [Bool.eq_iff_iff, isLeap_iff]
      unfold Leap
      simp only [Bool.and_eq_true, beq_iff_eq, Bool.or_eq_true, bne_iff_ne]
      omega
    rw [hl]
    obtain ⟨m1, m2, m3⟩ := monthDay_ok (isLeap (a * 400 + 1 + b * 100 + c * 4 + d)) r4 b4
    generalize monthDay (isLeap (a * 400 + 1 + b * 100 + c * 4 + d)) r4 = p at m1 m2 m3
    obtain ⟨m, e⟩ := p
    simp only at m1 m2 m3 ⊢
    refine ⟨⟨by omega, m1, m2⟩, ?_⟩
    unfold ymd2ord
    rw [dby_eq a b c d (by omega) hc24 (by omega)]
    omega

/-- The number of a date belongs to that date only. -/
theorem ord2ymd_ymd2ord (y m d : Nat) (h : Date y m d) : ord2ymd (ymd2ord y m d) = (y, m, d) := by
  have hp : 1 ≤ ymd2ord y m d := by
    have := h.2.2.1
    unfold ymd2ord
    omega
  obtain ⟨h1, h2⟩ := ord2ymd_ok _ hp
  obtain ⟨e1, e2, e3⟩ := ymd2ord_inj _ _ _ _ _ _ h1 h h2
  generalize ord2ymd (ymd2ord y m d) = p at e1 e2 e3
  obtain ⟨a, b, c⟩ := p
  simp_all

theorem ymd2ord_le (y m d : Nat) (h : Date y m d) (hy : y ≤ 9999) : ymd2ord y m d ≤ 3652059 := by
  have h1 := daysBeforeMonth_last (isLeap y) m h.2.1.1 h.2.1.2
  have h2 := daysBeforeYear_succ y h.1
  have h3 := daysBeforeYear_lt (y + 1) (10000 - (y + 1)) (by omega)
  rw [show y + 1 + (10000 - (y + 1)) = 10000 by omega] at h3
  have h4 : daysBeforeYear 10000 = 3652059 := by decide
  have h5 := h.2.2.2
  unfold ymd2ord
  omega

theorem year_le (y m d : Nat) (h : Date y m d) (ho : ymd2ord y m d ≤ 3652059) : y ≤ 9999 := by
  by_contra hy
  have h3 := daysBeforeYear_lt 10000 (y - 10000) (by omega)
  rw [show 10000 + (y - 10000) = y by omega] at h3
  have h4 : daysBeforeYear 10000 = 3652059 := by decide
  have h5 := h.2.2.1
  unfold ymd2ord at ho
  omega

theorem ymd2ord_nextDay (y m d : Nat) (h : Date y m d) :
    ymd2ord (nextDay y m d).1 (nextDay y m d).2.1 (nextDay y m d).2.2 = ymd2ord y m d + 1 := by
  obtain ⟨h1, h2, h3⟩ := h
  have hlen := daysInMonth_eq y m h2.1 h2.2
  unfold nextDay
  by_cases hd : d < monthLength y m
  · rw [if_pos hd]
    unfold ymd2ord
    simp only
    omega
  · rw [if_neg hd]
    by_cases hm : m < 12
    · rw [if_pos hm]
      unfold ymd2ord
      simp only
      rw [daysBeforeMonth_succ _ m h2.1 hm]
      omega
    · rw [if_neg hm]
      have hm : m = 12 := by omega
      subst hm
      unfold ymd2ord
      simp only
      rw [daysBeforeYear_succ y h1]
      have hx : ∀ l, daysBeforeMonth l 1 = 0 := by decide
      have hz : ∀ l, daysBeforeMonth l 12 + 31 = if l then 366 else 365 := by decide
      have hz' := hz (isLeap y)
      have h31 : ∀ l, daysInMonth l 12 = 31 := by decide
      rw [h31] at h3 hlen
      rw [hx]
      omega

theorem nextDay_date (y m d : Nat) (h : Date y m d) : Date (nextDay y m d).1 (nextDay y m d).2.1 (nextDay y m d).2.2 := by
  obtain ⟨h1, h2, h3⟩ := h
  have hlen := daysInMonth_eq y m h2.1 h2.2
  have hpos : ∀ l, ∀ m, 1 ≤ m → m ≤ 12 → 1 ≤ daysInMonth l m := by
    intro l m h1 h2
    cases l <;> interval_cases m <;> decide
  unfold nextDay
  by_cases hd : d < monthLength y m
  · rw [if_pos hd]
    exact ⟨h1, h2, by simp only; omega⟩
  · rw [if_neg hd]
    by_cases hm : m < 12
    · rw [if_pos hm]
      exact ⟨h1, by simp only; omega, ⟨Nat.le_refl _, hpos _ _ (by simp only; omega) (by simp only; omega)⟩⟩
    · rw [if_neg hm]
      exact ⟨by simp only; omega, by simp only; omega, ⟨Nat.le_refl _, hpos _ _ (by simp only; omega) (by simp only; omega)⟩⟩

theorem Valid.date {dt : DT} (h : Valid dt) : Date dt.year dt.month dt.day := by
  obtain ⟨h1, h2, h3, -⟩ := h
  exact ⟨h1.1, h2, h3.1, by rw [daysInMonth_eq _ _ h2.1 h2.2]; exact h3.2⟩

/-! ### Instants -/

/-- Microseconds from the first day of the calendar to the epoch. -/
def W0 : Int := 62135683200000000

theorem unix_eq (dt : DT) : datetimeToUnix dt = ((dt.wall - dt.tz.getD 0 - W0 : Int) : ℚ) / 1000000 := by
  have he : (naiveToUtc epoch).wall - (naiveToUtc epoch).tz.getD 0 = W0 := by decide +kernel
  unfold datetimeToUnix DT.sub
  rw [he]
  unfold naiveToUtc
  by_cases h : dt.tz = none
  · rw [if_pos h, h]
    rfl
  · rw [if_neg h]

theorem wall_inj (a b : DT) (ha : Valid a) (hb : Valid b) (ht : a.tz = b.tz) (h : a.wall = b.wall) : a = b := by
  have da := ha.date
  have db := hb.date
  obtain ⟨-, -, -, a1, a2, a3, a4⟩ := ha
  obtain ⟨-, -, -, b1, b2, b3, b4⟩ := hb
  unfold DT.wall at h
  have ho : ymd2ord a.year a.month a.day = ymd2ord b.year b.month b.day := by omega
  obtain ⟨e1, e2, e3⟩ := ymd2ord_inj _ _ _ _ _ _ da db ho
  rw [ho] at h
  have f1 : a.hour = b.hour := by omega
  have f2 : a.minute = b.minute := by omega
  have f3 : a.second = b.second := by omega
  have f4 : a.micro = b.micro := by omega
  obtain ⟨⟩ := a
  obtain ⟨⟩ := b
  simp_all

theorem fromtimestamp_ok (t : ℚ) (h : -62135596800000000 ≤ rint (t * 1000000) ∧ rint (t * 1000000) < 253402300800000000) :
    ∃ dt, fromtimestamp t = .ok dt ∧ Valid dt ∧ dt.tz = some 0 ∧ dt.wall = rint (t * 1000000) + W0 := by
  unfold fromtimestamp
  simp only
  generalize rint (t * 1000000) = u at h
  have hn : ¬ (u / 86400000000 + 719163 < 1 ∨ 3652059 < u / 86400000000 + 719163) := by omega
  rw [if_neg hn]
  generalize hk : (u / 86400000000 + 719163).toNat = k
  have hk1 : 1 ≤ k := by omega
  have hk2 : k ≤ 3652059 := by omega
  obtain ⟨h1, h2⟩ := ord2ymd_ok k hk1
  have h3 := year_le _ _ _ h1 (by rw [h2]; exact hk2)
  generalize ord2ymd k = p at h1 h2 h3
  obtain ⟨y, m, d⟩ := p
  simp only at h1 h2 h3 ⊢
  refine ⟨_, rfl, ⟨⟨h1.1, h3⟩, h1.2.1, ⟨h1.2.2.1, ?_⟩, ?_, ?_, ?_, ?_⟩, rfl, ?_⟩
  · rw [← daysInMonth_eq y m h1.2.1.1 h1.2.1.2]
    exact h1.2.2.2
  · simp only; omega
  · simp only; omega
  · simp only; omega
  · simp only; omega
  · unfold DT.wall W0
    simp only
    rw [h2]
    omega

theorem fromtimestamp_error (t : ℚ) (h : ¬ (-62135596800000000 ≤ rint (t * 1000000) ∧ rint (t * 1000000) < 253402300800000000)) :
    fromtimestamp t = .error .valueError := by
  unfold fromtimestamp
  simp only
  generalize rint (t * 1000000) = u at h
  rw [if_pos (by omega)]

theorem rint_int (n : Int) : rint (n : ℚ) = n := by
  unfold rint
  simp

theorem wall_range (dt : DT) (h : Valid dt) : 86400000000 ≤ dt.wall ∧ dt.wall < 86400000000 * 3652060 := by
  have hd := h.date
  have h1 := ymd2ord_le _ _ _ hd h.1.2
  have h2 : 1 ≤ ymd2ord dt.year dt.month dt.day := by
    have := hd.2.2.1
    unfold ymd2ord
    omega
  obtain ⟨-, -, -, a1, a2, a3, a4⟩ := h
  unfold DT.wall
  omega

/-! ### Strings -/

theorem digit_class : ∀ n < 10, rng '0' '9' (digit n) = true ∧ num (digit n) = n ∧ digit n ≠ ' ' := by decide

theorem digit_lt : ∀ a < 10, ∀ b < 10, (digit a < digit b ↔ a < b) := by decide

theorem digit_inj : ∀ a < 10, ∀ b < 10, (digit a = digit b ↔ a = b) := by decide

theorem flatMap_head {α β : Type} (f : α → List β) (l : List α) (x : α) (y : β) (h : ∃ more, l = x :: more) (h' : ∃ more, f x = y :: more) :
    ∃ more, l.flatMap f = y :: more := by
  obtain ⟨m, rfl⟩ := h
  obtain ⟨m', hm'⟩ := h'
  exact ⟨_, by rw [List.flatMap_cons, hm', List.cons_append]⟩

theorem alts_year (y : Nat) (h : y < 10000) (r : Str) : ∃ more, alts reY (pad4 y ++ r) = (y, r) :: more := by
  refine ⟨[], ?_⟩
  obtain ⟨a1, a2, a3⟩ := digit_class (y / 1000) (by omega)
  obtain ⟨b1, b2, b3⟩ := digit_class (y / 100 % 10) (by omega)
  obtain ⟨c1, c2, c3⟩ := digit_class (y / 10 % 10) (by omega)
  obtain ⟨d1, d2, d3⟩ := digit_class (y % 10) (by omega)
  simp only [alts, reY, pad4, List.flatMap_cons, List.flatMap_nil, List.append_nil, List.cons_append, List.nil_append, one, a1, b1, c1, d1,
    if_true, if_neg a3, if_neg b3, if_neg c3, if_neg d3, a2, b2, c2, d2]
  congr 2
  omega

theorem alts_month (m : Nat) (h1 : 1 ≤ m) (h2 : m ≤ 12) (r : Str) : ∃ more, alts reM (pad2 m ++ r) = (m, r) :: more := by
  interval_cases m <;> exact ⟨_, rfl⟩

theorem alts_day (m : Nat) (h1 : 1 ≤ m) (h2 : m ≤ 31) (r : Str) : ∃ more, alts reD (pad2 m ++ r) = (m, r) :: more := by
  interval_cases m <;> exact ⟨_, rfl⟩

theorem alts_hour (m : Nat) (h2 : m < 24) (r : Str) : ∃ more, alts reH (pad2 m ++ r) = (m, r) :: more := by
  interval_cases m <;> exact ⟨_, rfl⟩

theorem alts_minute (m : Nat) (h2 : m < 60) (r : Str) : ∃ more, alts reMin (pad2 m ++ r) = (m, r) :: more := by
  interval_cases m <;> exact ⟨_, rfl⟩

theorem alts_second (m : Nat) (h2 : m < 60) (r : Str) : ∃ more, alts reS (pad2 m ++ r) = (m, r) :: more := by
  interval_cases m <;> exact ⟨_, rfl⟩

/-- The fifteen characters that are read. -/
def stem (dt : DT) : Str :=
  pad4 dt.year ++ (pad2 dt.month ++ (pad2 dt.day ++ ('T' :: (pad2 dt.hour ++ (pad2 dt.minute ++ pad2 dt.second)))))

theorem timestr_stem (dt : DT) (hy : 1000 ≤ dt.year) : datetimeToTimestr dt = stem dt ++ ['Z'] := by
  unfold datetimeToTimestr stem yearStr
  rw [if_pos hy]
  simp

theorem monthLength_le (y m : Nat) : monthLength y m ≤ 31 := by
  unfold monthLength
  split
  · split <;> omega
  · split <;> omega

theorem matches_stem (dt : DT) (h : Valid dt) :
    ∃ more, matches' (stem dt) = ((dt.year, dt.month, dt.day, dt.hour, dt.minute, dt.second), []) :: more := by
  obtain ⟨h1, h2, h3, h4, h5, h6, h7⟩ := h
  have h31 := monthLength_le dt.year dt.month
  unfold matches' stem
  refine flatMap_head _ _ _ _ (alts_year dt.year (by omega) _) ?_
  refine flatMap_head _ _ _ _ (alts_month dt.month h2.1 h2.2 _) ?_
  refine flatMap_head _ _ _ _ (alts_day dt.day h3.1 (by omega) _) ?_
  refine flatMap_head _ _ _ _ ⟨[], by simp only [letterT]; rfl⟩ ?_
  refine flatMap_head _ _ _ _ (alts_hour dt.hour h4 _) ?_
  refine flatMap_head _ _ _ _ (alts_minute dt.minute h5 _) ?_
  obtain ⟨more, hm⟩ := alts_second dt.second h6 []
  rw [List.append_nil] at hm
  exact ⟨_, by simp only [hm, List.map_cons]; rfl⟩

theorem strptime_stem (dt : DT) (h : Valid dt) : strptime (stem dt) = .ok { dt with micro := 0, tz := none } := by
  obtain ⟨more, hm⟩ := matches_stem dt h
  unfold strptime
  rw [hm]
  simp only [ne_eq, not_true, if_false]
  have hd := h.date
  obtain ⟨h1, h2, h3, h4, h5, h6, h7⟩ := h
  unfold mk
  rw [if_pos]
  exact ⟨h1, h2, hd.2.2, by omega, by omega, by omega, by omega⟩

theorem stem_length (dt : DT) : (stem dt).length = 15 := by
  simp [stem, pad4, pad2]

theorem pad2_lt (v w : Nat) (hv : v < 100) (hw : w < 100) (s t : Str) : pad2 v ++ s < pad2 w ++ t ↔ v < w ∨ (v = w ∧ s < t) := by
  simp only [pad2, List.cons_append, List.nil_append, List.cons_lt_cons_iff]
  rw [digit_lt _ (by omega) _ (by omega), digit_lt _ (by omega) _ (by omega), digit_inj _ (by omega) _ (by omega), digit_inj _ (by omega) _ (by omega)]
  by_cases h : s < t
  · simp only [h, and_true]; omega
  · simp only [h, and_false, or_false]; omega

theorem pad4_lt (v w : Nat) (hv : v < 10000) (hw : w < 10000) (s t : Str) : pad4 v ++ s < pad4 w ++ t ↔ v < w ∨ (v = w ∧ s < t) := by
  simp only [pad4, List.cons_append, List.nil_append, List.cons_lt_cons_iff]
  rw [digit_lt _ (by omega) _ (by omega), digit_lt _ (by omega) _ (by omega), digit_lt _ (by omega) _ (by omega), digit_lt _ (by omega) _ (by omega),
    digit_inj _ (by omega) _ (by omega), digit_inj _ (by omega) _ (by omega), digit_inj _ (by omega) _ (by omega), digit_inj _ (by omega) _ (by omega)]
  by_cases h : s < t
  · simp only [h, and_true]; omega
  · simp only [h, and_false, or_false]; omega

theorem timestr_lt (a b : DT) (ha : Valid a) (hb : Valid b) (hya : 1000 ≤ a.year) (hyb : 1000 ≤ b.year) :
    datetimeToTimestr a < datetimeToTimestr b ↔ a.wall / 1000000 < b.wall / 1000000 := by
  have da := ha.date
  have db := hb.date
  obtain ⟨a1, a2, a3, a4, a5, a6, a7⟩ := ha
  obtain ⟨b1, b2, b3, b4, b5, b6, b7⟩ := hb
  have la := monthLength_le a.year a.month
  have lb := monthLength_le b.year b.month
  unfold datetimeToTimestr yearStr
  rw [if_pos hya, if_pos hyb, pad4_lt _ _ (by omega) (by omega), pad2_lt _ _ (by omega) (by omega), pad2_lt _ _ (by omega) (by omega), List.cons_lt_cons_iff,
    pad2_lt _ _ (by omega) (by omega), pad2_lt _ _ (by omega) (by omega), pad2_lt _ _ (by omega) (by omega)]
  have hZ : ¬ (['Z'] : Str) < ['Z'] := by decide
  have hT : ¬ 'T' < 'T' := by decide
  simp only [hZ, hT, and_false, or_false, false_or, true_and]
  have l1 := ymd2ord_lt a.year a.month a.day b.year b.month b.day da.1 da.2.1 db.2.1 da.2.2.2 db.2.2.1
  have l2 := ymd2ord_lt b.year b.month b.day a.year a.month a.day db.1 db.2.1 da.2.1 db.2.2.2 da.2.2.1
  have wa : a.wall / 1000000 = (ymd2ord a.year a.month a.day : Int) * 86400 + a.hour * 3600 + a.minute * 60 + a.second := by
    unfold DT.wall; omega
  have wb : b.wall / 1000000 = (ymd2ord b.year b.month b.day : Int) * 86400 + b.hour * 3600 + b.minute * 60 + b.second := by
    unfold DT.wall; omega
  rw [wa, wb]
  by_cases e : a.year = b.year ∧ a.month = b.month ∧ a.day = b.day
  · obtain ⟨e1, e2, e3⟩ := e
    rw [e1, e2, e3]
    simp only [Nat.lt_irrefl, false_or, true_and]
    omega
  · by_cases lt : a.year < b.year ∨ (a.year = b.year ∧ (a.month < b.month ∨ (a.month = b.month ∧ a.day < b.day)))
    · have := l1 lt
      constructor
      · intro _; omega
      · intro _; omega
    · have := l2 (by omega)
      constructor
      · intro _; omega
      · intro _; omega

theorem eachOf_map {α β γ : Type} (f : α → Except PyErr β) (k : γ → α) (g : γ → β) (l : List γ) (h : ∀ x ∈ l, f (k x) = .ok (g x)) :
    eachOf f (l.map k) = .ok (l.map g) := by
  induction l with
  | nil => rfl
  | cons x l ih =>
    rw [List.map_cons, eachOf, h x List.mem_cons_self]
    simp only [ih fun y hy => h y (List.mem_cons_of_mem _ hy), List.map_cons]

end Verif.Clock
