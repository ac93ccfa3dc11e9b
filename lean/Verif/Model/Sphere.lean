import Verif.Model.RayIntersection
import Mathlib.Analysis.Real.Sqrt

/-!
# Circles and spheres

These routines take square roots, so the numbers are the real numbers.
-/

namespace Geometrix

/-- `std::sqrt`: the root of a negative number is not a number. -/
noncomputable def csqrt (x : ℝ) : Res ℝ := if x < 0 then .error .nan else .ok (Real.sqrt x)

/-- `circle_intersection_state`: `geometrix/algorithm/intersection/circle_circle_intersection.hpp:22-29`
(`sphere_sphere_intersection.hpp:22-29` is the same). -/
inductive CircleState where
  | nonIntersecting
  | circumscribed
  | one
  | two
  | coincident
  deriving DecidableEq, Repr

/-- `circle_circle_intersection_result`: `circle_circle_intersection.hpp:31-52`. -/
structure CircleResult where
  state : CircleState
  p0 : Option (P2 ℝ)
  p1 : Option (P2 ℝ)

/-- `circle_circle_intersection`: `circle_circle_intersection.hpp:54-92`, and
`sphere_sphere_intersection`: `sphere_sphere_intersection.hpp:54-92`, which is the same text (it works
in the plane too). A circle is its centre and radius. -/
noncomputable def circleCircle (cmp : Cmp ℝ) (cA : P2 ℝ) (rA : ℝ) (cB : P2 ℝ) (rB : ℝ) :
    Res CircleResult :=
  let d := Real.sqrt (distSq cA cB)
  if cmp.gt d (rA + rB) then .ok ⟨.nonIntersecting, none, none⟩
  else if cmp.lt d |rA - rB| then .ok ⟨.circumscribed, none, none⟩
  else if cmp.equals d 0 then .ok ⟨.coincident, none, none⟩
  else do
    let r1 := rA * rA
    let a ← cdiv (r1 - rB * rB + d * d) (2 * d)
    let h ← csqrt (r1 - a * a)
    let v := cB - cA
    let dinv ← cdiv 1 d
    let m := cA + (a * dinv) • v
    let f := h * dinv
    let s1 := m + f • rightNormal v
    if cmp.equals h 0 then .ok ⟨.one, some s1, none⟩
    else .ok ⟨.two, some s1, some (m + f • leftNormal v)⟩

end Geometrix
