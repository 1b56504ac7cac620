import Verif.Sphere.Model

/-!
# Geometry of the sphere
-/
namespace Verif.Sphere

open Real

noncomputable section

/-- The product of two vectors. -/
def dot (u v : V3) : ℝ := u.x * v.x + u.y * v.y + u.z * v.z

/-- The vector product. -/
def cross (u v : V3) : V3 := ⟨u.y * v.z - u.z * v.y, u.z * v.x - u.x * v.z, u.x * v.y - u.y * v.x⟩

/-- Distance of two points. -/
def distance (u v : V3) : ℝ := √((u.x - v.x) ^ 2 + (u.y - v.y) ^ 2 + (u.z - v.z) ^ 2)

def Unit (u : V3) : Prop := dot u u = 1

/-- Three unit vectors at right angles, in the order of the fingers of the right hand. -/
structure RightHanded (a b c : V3) : Prop where
  unit1 : Unit a
  unit2 : Unit b
  unit3 : Unit c
  perp12 : dot a b = 0
  perp23 : dot b c = 0
  perp31 : dot c a = 0
  hand : cross a b = c

/-- `γ` is the angle between two unit vectors. -/
def Angle (u v : V3) (γ : ℝ) : Prop := 0 ≤ γ ∧ γ ≤ π ∧ cos γ = dot u v

/-- `r` is the distance from the origin, `θ` the angle to the axis, and `φ` the angle around it. -/
structure Polar (v : V3) (r θ φ : ℝ) : Prop where
  radius : 0 ≤ r ∧ r ^ 2 = dot v v
  height : v.z = r * cos θ
  around : v.x = r * sin θ * cos φ ∧ v.y = r * sin θ * sin φ

/-- The part of a vector `v` that is turned by `t` about the unit vector `k`: Rodrigues' formula. -/
def turn (k : V3) (t : ℝ) (v : V3) : V3 :=
  ((v.scale (cos t)).add ((cross k v).scale (sin t))).add (k.scale (dot k v * (1 - cos t)))

end

end Verif.Sphere
