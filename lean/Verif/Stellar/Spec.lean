import Verif.Stellar.Model

/-!
# What stellar angles and days are
-/
namespace Verif.Stellar

/-- How often the meridian of the observer has passed the origin at a UNIX time; not a whole number in between. -/
def passed (k : Sky) (o : Obs) (t : ℚ) : ℚ := k.turns (k.tt t) + o.longitude / 360

/-- The seconds of a stellar day. -/
def stellarDay : ℚ := 86400 * stellarSecond

/-- The Earth turns steadily, once in a stellar day, and terrestrial time is ahead of UNIX time by leap seconds (up to a
constant). These come seldom, and there are not too many of them. -/
structure Steady (k : Sky) (leap : ℚ → ℤ) (c : ℚ) : Prop where
  tt : ∀ t, k.tt t = t + leap t
  turns : ∀ x, k.turns x = c + x / stellarDay
  mono : ∀ a b, a ≤ b → leap a ≤ leap b
  seldom : ∀ a b, b ≤ a + 172800 → leap b ≤ leap a + 1
  few : ∀ a b, leap b ≤ leap a + 100

/-- The angle `a` (degrees) is that of the meridian at the time `t`. -/
def AtAngle (k : Sky) (o : Obs) (a t : ℚ) : Prop := ∃ n : ℤ, passed k o t = a / 360 + n

/-- `t` is the next time after `t0` (or `t0` itself) at which the angle is `a`: less than a turn later. -/
def Next (k : Sky) (o : Obs) (a t0 t : ℚ) : Prop := t0 ≤ t ∧ passed k o t < passed k o t0 + 1 ∧ AtAngle k o a t

end Verif.Stellar
