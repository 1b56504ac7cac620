import Verif.Clock.Model

/-!
# What dates and times should be
-/
namespace Verif.Clock

/-- The Gregorian rule. -/
def Leap (y : Nat) : Prop := 4 ∣ y ∧ (¬ 100 ∣ y ∨ 400 ∣ y)

instance (y : Nat) : Decidable (Leap y) := by unfold Leap; infer_instance

/-- How long the months are. -/
def monthLength (y m : Nat) : Nat :=
  if m = 2 then (if Leap y then 29 else 28) else if m = 4 ∨ m = 6 ∨ m = 9 ∨ m = 11 then 30 else 31

/-- The day after a day. -/
def nextDay (y m d : Nat) : Nat × Nat × Nat :=
  if d < monthLength y m then (y, m, d + 1)
  else if m < 12 then (y, m + 1, 1)
  else (y + 1, 1, 1)

/-- A date and a time of day that exist. -/
def Valid (dt : DT) : Prop :=
  (1 ≤ dt.year ∧ dt.year ≤ 9999) ∧ (1 ≤ dt.month ∧ dt.month ≤ 12) ∧ (1 ≤ dt.day ∧ dt.day ≤ monthLength dt.year dt.month) ∧
  dt.hour < 24 ∧ dt.minute < 60 ∧ dt.second < 60 ∧ dt.micro < 1000000

instance (dt : DT) : Decidable (Valid dt) := by unfold Valid; infer_instance

/-- Meant as UTC: with this time zone, or without any. -/
def Utc (dt : DT) : Prop := dt.tz = none ∨ dt.tz = some 0

end Verif.Clock
