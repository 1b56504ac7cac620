import Mathlib.Analysis.SpecialFunctions.Complex.Arg
import Mathlib.Analysis.SpecialFunctions.Trigonometric.Inverse
import Mathlib.Algebra.Order.Round

/-!
# Model of coordinates on the sphere

Models of `caput/astro/coordinates/_spherical.pyx` (all functions) and `caput/astro/coordinates/spherical.py` (all functions).

Floating point numbers are taken for real numbers: there is no rounding. `nan` is `none`. An array is the list of its vectors: other axes play no role, and neither does the
order in which threads go through it, since no element depends on another. `arctan2` is the argument of a complex number, which is zero for zero (there is no negative zero).
-/
namespace Verif.Sphere

open Real

noncomputable section

inductive Err where
  | valueError
  | zeroDivision
  | antipodal
  | typeError
  deriving DecidableEq, Repr

/-- A vector in Cartesian coordinates. -/
@[ext] structure V3 where
  x : ℝ
  y : ℝ
  z : ℝ

/-- `np.arctan2(y, x)`. -/
def arctan2 (y x : ℝ) : ℝ := Complex.arg ⟨x, y⟩

/-! ### _spherical.pyx -/

/-- _spherical.pyx:195-203 `_s2c`. -/
def s2c (θ φ : ℝ) : V3 := ⟨sin θ * cos φ, sin θ * sin φ, cos θ⟩

/-- _spherical.pyx:37-52: one vector. -/
def s2cRow : List ℝ → Except Err V3
  | [θ, φ] => .ok (s2c θ φ)
  | [r, θ, φ] => .ok ⟨(s2c θ φ).x * r, (s2c θ φ).y * r, (s2c θ φ).z * r⟩
  | _ => .error .valueError

/-- The loop over the vectors, which have the same length. -/
def s2cRows : List (List ℝ) → Except Err (List V3)
  | [] => .ok []
  | p :: ps =>
    match s2cRow p with
    | .error e => .error e
    | .ok v =>
      match s2cRows ps with
      | .error e => .error e
      | .ok vs => .ok (v :: vs)

/-- _spherical.pyx:15-55 `sph_to_cart`, for vectors with `nd` coordinates; `isArray`: whether the argument is a `numpy` array. -/
def sphToCart (isArray : Bool) (nd : Nat) (rows : List (List ℝ)) : Except Err (List V3) :=
  if isArray = false then .error .valueError
  else if nd ≠ 2 ∧ nd ≠ 3 then .error .valueError
  else s2cRows rows

/-- Spherical coordinates as computed: `theta` may be `nan`. -/
structure Sph where
  r : ℝ
  θ : Option ℝ
  φ : ℝ

/-- _spherical.pyx:58-67 `cart_to_sph`, for an array of floating point numbers, one vector. `0 / 0` is `nan`. -/
def cartToSph (v : V3) : Sph :=
  let r := √(v.x ^ 2 + v.y ^ 2 + v.z ^ 2)
  ⟨r, if r = 0 then none else some (arccos (v.z / r)), arctan2 v.y v.x⟩

/-- Conversion of a floating point number to an integer: towards zero. -/
def trunc (x : ℝ) : ℤ := if x < 0 then ⌈x⌉ else ⌊x⌋

/-- The same for an array of integers: the result is of the same type (line 59), and the radius has been truncated when it is used on line 65. -/
def cartToSphInt (x y z : ℤ) : ℤ × Option ℤ × ℤ :=
  let r := trunc √((x : ℝ) ^ 2 + (y : ℝ) ^ 2 + (z : ℝ) ^ 2)
  (r, if r = 0 then none else some (trunc (arccos ((z : ℝ) / (r : ℝ)))), trunc (arctan2 y x))

/-- The product of `np.inner`. -/
def inner3 (u v : V3) : ℝ := u.x * v.x + u.y * v.y + u.z * v.z

/-- _spherical.pyx:70-71 `sph_dot`: `np.inner` takes the products of all vectors of one array with all of the other. -/
def sphDot (nd1 nd2 : Nat) (arr1 arr2 : List (List ℝ)) : Except Err (List (List ℝ)) :=
  match sphToCart true nd1 arr1, sphToCart true nd2 arr2 with
  | .ok us, .ok vs => .ok (us.map fun u => vs.map fun v => inner3 u v)
  | .error e, _ => .error e
  | _, .error e => .error e

/-- _spherical.pyx:74-86 `thetaphi_plane`, for one vector with two or three coordinates; for integers the addition in place is not possible. -/
def thetaphiPlane (isInt : Bool) (p : List ℝ) : Except Err (List ℝ × List ℝ) :=
  if isInt then .error .typeError
  else
    match p with
    | [θ, φ] => .ok ([θ + π / 2, φ], [π / 2, φ + π / 2])
    | [_, θ, φ] => .ok ([1, θ + π / 2, φ], [1, π / 2, φ + π / 2])
    | _ => .error .valueError

/-- _spherical.pyx:89-117 `thetaphi_plane_cart`, one vector; only for two coordinates. -/
def thetaphiPlaneCart (isArray : Bool) (p : List ℝ) : Except Err (V3 × V3) :=
  if isArray = false then .error .valueError
  else
    match p with
    | [θ, φ] => .ok (s2c (θ + π / 2) φ, s2c (π / 2) (φ + π / 2))
    | _ => .error .valueError

/-- _spherical.pyx:120-138 `norm_vec2`, for a contiguous array: the array afterwards. A division by zero is an exception (`cdivision` is not set). -/
def normVec2 (rows : List (ℝ × ℝ)) : Except Err (List (ℝ × ℝ)) :=
  if ∃ v ∈ rows, √(v.1 ^ 2 + v.2 ^ 2) = 0 then .error .zeroDivision
  else .ok (rows.map fun v => (v.1 / √(v.1 ^ 2 + v.2 ^ 2), v.2 / √(v.1 ^ 2 + v.2 ^ 2)))

/-- `np.linspace(0.0, 1.0, n)`. -/
def linspace (n : Nat) : List ℝ := if n = 1 then [0] else (List.range n).map fun (k : Nat) => (k : ℝ) / ((n : ℝ) - 1)

def V3.sub (u v : V3) : V3 := ⟨u.x - v.x, u.y - v.y, u.z - v.z⟩

/-- _spherical.pyx:141-168 `great_circle_points` for points as Cartesian vectors: for equal points everything is `nan`. -/
def circleOf (c1 c2 : V3) (npoints : Nat) : Except Err (List (Option ℝ × Option ℝ)) :=
  let dc := c2.sub c1
  if dc.x ^ 2 + dc.y ^ 2 + dc.z ^ 2 = 4 then .error .antipodal
  else
    let d := √(inner3 dc dc)
    if d = 0 then .ok ((linspace npoints).map fun _ => (none, none))
    else
      let dcn : V3 := ⟨dc.x / d, dc.y / d, dc.z / d⟩
      let thc := arccos (inner3 c1 c2)
      let alp := arccos (-inner3 c1 dcn)
      .ok ((linspace npoints).map fun f =>
        let x := sin (f * thc) / sin (f * thc + alp)
        let s := cartToSph ⟨x * dcn.x + c1.x, x * dcn.y + c1.y, x * dcn.z + c1.z⟩
        (s.θ, some s.φ))

/-- _spherical.pyx:141-168 `great_circle_points`. -/
def greatCirclePoints (sph1 sph2 : List ℝ) (npoints : Nat) : Except Err (List (Option ℝ × Option ℝ)) :=
  match s2cRow sph1, s2cRow sph2 with
  | .ok c1, .ok c2 => circleOf c1 c2 npoints
  | .error e, _ => .error e
  | _, .error e => .error e

/-- _spherical.pyx:171-192 `cosine_rule`, for cosines that are at most one. -/
def cosineRule (mu x1 x2 : List ℝ) : List (List (List ℝ)) :=
  mu.map fun m => x1.map fun a => x2.map fun b => √((a - b) ^ 2 + 2 * a * b * (1 - m))

/-! ### spherical.py -/

/-- spherical.py:27-48 `sph_to_ground`. -/
def sphToGround (ha lat dec : ℝ) : V3 :=
  ⟨-1 * cos dec * sin ha, cos lat * sin dec - sin lat * cos dec * cos ha, sin lat * sin dec + cos lat * cos dec * cos ha⟩

/-- spherical.py:51-77 `ground_to_sph`: `nan` for points outside of the unit circle. -/
def groundToSph (x y lat : ℝ) : Option (ℝ × ℝ) :=
  if 1 - x ^ 2 - y ^ 2 < 0 then none
  else
    let z := √(1 - x ^ 2 - y ^ 2)
    let xe := z * cos lat - y * sin lat
    let ye := x
    let ze := y * cos lat + z * sin lat
    some (-1 * arctan2 ye xe, arctan2 ze √(xe ^ 2 + ye ^ 2))

/-- spherical.py:80-109 `projected_distance`. -/
def projectedDistance (ha lat dec x y z : ℝ) : ℝ :=
  let dist := x * (-1 * cos dec * sin ha)
  let dist := dist + y * (cos lat * sin dec - sin lat * cos dec * cos ha)
  dist + z * (sin lat * sin dec + cos lat * cos dec * cos ha)

/-- A number, or an array with one axis. -/
inductive Val where
  | one (x : ℝ)
  | arr (l : List ℝ)

/-- `a * c` for a number `c`. -/
def Val.times : Val → ℝ → Val
  | .one x, c => .one (x * c)
  | .arr l, c => .arr (l.map (· * c))

/-- `a += b`: a number is replaced by the sum, an array is changed in place and keeps its length. -/
def Val.addInto : Val → Val → Except Err Val
  | .one x, .one y => .ok (.one (x + y))
  | .one x, .arr m => .ok (.arr (m.map (x + ·)))
  | .arr l, .one y => .ok (.arr (l.map (· + y)))
  | .arr l, .arr m =>
    if m.length = l.length then .ok (.arr (List.zipWith (· + ·) l m))
    else
      match m with
      | [y] => .ok (.arr (l.map (· + y)))
      | _ => .error .valueError

/-- spherical.py:104-109, for one direction and arrays of points. -/
def projectedDistances (ha lat dec : ℝ) (x y z : Val) : Except Err Val :=
  match (x.times (-1 * cos dec * sin ha)).addInto (y.times (cos lat * sin dec - sin lat * cos dec * cos ha)) with
  | .error e => .error e
  | .ok dist => dist.addInto (z.times (sin lat * sin dec + cos lat * cos dec * cos ha))

def V3.add (u v : V3) : V3 := ⟨u.x + v.x, u.y + v.y, u.z + v.z⟩

def V3.scale (c : ℝ) (u : V3) : V3 := ⟨c * u.x, c * u.y, c * u.z⟩

/-- spherical.py:112-149 `rotate_ypr`. -/
def rotateYpr (yaw pitch roll : ℝ) (xhat yhat zhat : V3) : V3 × V3 × V3 :=
  let xhat1 := (xhat.scale (cos yaw)).sub (yhat.scale (sin yaw))
  let yhat1 := (xhat.scale (sin yaw)).add (yhat.scale (cos yaw))
  let zhat1 := zhat
  let xhat2 := xhat1
  let yhat2 := (yhat1.scale (cos pitch)).add (zhat1.scale (sin pitch))
  let zhat2 := (yhat1.scale (-sin pitch)).add (zhat1.scale (cos pitch))
  let xhat3 := (xhat2.scale (cos roll)).sub (zhat2.scale (sin roll))
  let yhat3 := yhat2
  let zhat3 := (xhat2.scale (sin roll)).add (zhat2.scale (cos roll))
  (xhat3, yhat3, zhat3)

/-- spherical.py:152-181 `sphdist`. -/
def sphdist (long1 lat1 long2 lat2 : ℝ) : ℝ :=
  let dsinb := sin ((lat1 - lat2) / 2) ^ 2
  let dsinl := cos lat1 * cos lat2 * sin ((long1 - long2) / 2) ^ 2
  2 * arcsin √(dsinl + dsinb)

end

end Verif.Sphere
