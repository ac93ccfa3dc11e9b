import Verif.Model.Basic3
import Verif.Model.PolylineSplit
import Verif.Model.RayIntersection

/-!
# Vector operations

`geometrix/arithmetic/vector/{normalize,perp,bisect,is_antiparallel}.hpp`,
`geometrix/algebra/exterior_product.hpp`. `normalize` in two dimensions is `normalize2`, `left_normal` and
`right_normal` are `leftNormal` and `rightNormal`, the exterior product in two dimensions is `cross`.
-/

set_option linter.unusedSectionVars false

namespace Geometrix

variable {K : Type*} [Field K]

/-- `perp`: `perp.hpp:39-45`. -/
def perp (u : P2 K) : P2 K := ⟨(-u).y, u.x⟩

/-- `oriented_normal`: `perp.hpp:63-102`. There is no definition for `oriented_collinear`, it does not
compile. -/
def orientedNormal (o : Orient) (u : P2 K) : Option (P2 K) :=
  match o with
  | .right => some (rightNormal u)
  | .left => some (leftNormal u)
  | .collinear => none

/-- `detail::exterior_product_area` in three dimensions: `exterior_product.hpp:74-87`. -/
def exteriorArea3 (a b : P3 K) : K :=
  (a.y * b.z - a.z * b.y) - (a.x * b.z - a.z * b.x) + (a.x * b.y - a.y * b.x)

/-- `detail::exterior_product_volume`: `exterior_product.hpp:99-108`. -/
def exteriorVolume (a b c : P3 K) : K := dot3 (cross3 a b) c

/-- `normalize` in three dimensions: `normalize.hpp:33-45`. -/
noncomputable def normalize3 (v : P3 ℝ) : Res (P3 ℝ) :=
  if Real.sqrt (dot3 v v) = 0 then .error .assertFailed
  else .ok ((1 / Real.sqrt (dot3 v v)) • v)

/-- The sum of the two vectors, or its negative when they turn right, normalised: `bisect.hpp:40-44` and
`bisect.hpp:59-64`. -/
noncomputable def bisectSum (lo hi : P2 ℝ) : Res (P2 ℝ) :=
  if getOrientationV Cmp.direct lo hi ≠ .right then normalize2 ((1 / 2 : ℝ) • (lo + hi))
  else normalize2 ((1 / 2 : ℝ) • (-lo - hi))

/-- `bisect`: `bisect.hpp:30-50`. -/
noncomputable def bisect (lo hi : P2 ℝ) : Res (P2 ℝ) :=
  match normalize2 lo, normalize2 hi with
  | .ok nlo, .ok nhi =>
    let dp := dot nlo nhi
    if dp > -1 ∧ dp < 1 then bisectSum lo hi
    else if dp = -1 then .ok (rightNormal nhi)
    else .ok (-hi)
  | .error e, _ => .error e
  | _, .error e => .error e

/-- `is_antiparallel`: `is_antiparallel.hpp:21-26`. -/
noncomputable def isAntiparallel (cmp : Cmp ℝ) (u v : P2 ℝ) : Res Bool :=
  match normalize2 u, normalize2 v with
  | .ok nu, .ok nv => .ok (cmp.equals (dot nu nv) (-1))
  | .error e, _ => .error e
  | _, .error e => .error e

/-- `bisect_not_antiparallel`: `bisect.hpp:52-65`. -/
noncomputable def bisectNotAntiparallel (lo hi : P2 ℝ) : Res (P2 ℝ) :=
  match isAntiparallel Cmp.direct lo hi with
  | .error e => .error e
  | .ok true => .error .assertFailed
  | .ok false => bisectSum lo hi

end Geometrix
