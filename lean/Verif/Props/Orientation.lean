import Verif.Lemmas.Orientation
import Verif.Lemmas.Vec
import Verif.Props.Policy

/-!
# C05: orientation predicate laws
-/

set_option linter.unusedSectionVars false

namespace Geometrix

open Spec

variable {K : Type*} [Field K] [LinearOrder K] [IsStrictOrderedRing K]

/-- C05: with the direct policy the predicate reports the sign of the signed area of the triangle.
The three outcomes are left (counter-clockwise), right (clockwise) and collinear. -/
theorem C05_sign_of_area (A B C : P2 K) :
    (getOrientation Cmp.direct A B C = .left ↔ 0 < area2 A B C) ∧
    (getOrientation Cmp.direct A B C = .right ↔ area2 A B C < 0) ∧
    (getOrientation Cmp.direct A B C = .collinear ↔ area2 A B C = 0) := 
  orientation_sign A B C

/-- C05: cyclic rotation of the arguments changes nothing (direct policy). -/
theorem C05_cyclic (A B C : P2 K) :
    getOrientation Cmp.direct A B C = getOrientation Cmp.direct B C A := by
  have : area2 A B C = area2 B C A := by unfold area2; ring
  apply orientation_eq_of_sign <;> rw [this]

/-- C05: translating all points changes nothing, whatever the comparison policy. -/
theorem C05_translate (cmp : Cmp K) (A B C v : P2 K) :
    getOrientation cmp (A + v) (B + v) (C + v) = getOrientation cmp A B C := by
  have h : ∀ p q : P2 K, (p + v) - (q + v) = p - q := by
    intro p q; ext <;> simp
  simp only [getOrientation, h]

/-- C05: scaling with a positive factor changes nothing (direct policy). -/
theorem C05_scale (A B C : P2 K) (r : K) (hr : 0 < r) :
    getOrientation Cmp.direct (r • A) (r • B) (r • C) = getOrientation Cmp.direct A B C := by
  have h : area2 (r • A) (r • B) (r • C) = r ^ 2 * area2 A B C := by
    simp only [area2, P2.smul_x, P2.smul_y]; ring
  have hr2 : 0 < r ^ 2 := by positivity
  apply orientation_eq_of_sign <;> rw [h]
  · exact ⟨fun h => pos_of_mul_pos_right h hr2.le, fun h => by positivity⟩
  · constructor
    · intro h; by_contra hn; push Not at hn; nlinarith
    · intro h; nlinarith

example : (0 : ℚ) < 3 := by norm_num

/-- C05: exchanging the last two points reverses the answer, for every coherent comparison policy
(so also with a tolerance). -/
theorem C05_swap (cmp : Cmp K) (hc : Coherent cmp) (A B C : P2 K) :
    getOrientation cmp A C B = (getOrientation cmp A B C).opposite := by
  simp only [getOrientation, getOrientationV, orientationOf]
  rw [mul_comm (C - A).x, mul_comm (C - A).y]
  generalize (B - A).x * (C - A).y = a
  generalize (B - A).y * (C - A).x = b
  have h1 := hc.swap a b
  have h2 := hc.swap b a
  rw [h1, h2]
  have ht := hc.trichotomy a b
  rw [h1] at ht
  cases hgt : cmp.gt a b <;> cases hlt : cmp.gt b a <;> simp [Orient.opposite]
  simp [ExactlyOne, hgt, hlt] at ht

example : Coherent (Cmp.absolute (1 / 100 : ℚ)) := C01_absolute_coherent _ (by norm_num)

/-- C05: two coinciding points make the triple collinear, for every coherent policy. -/
theorem C05_coincident (cmp : Cmp K) (hc : Coherent cmp) (A B : P2 K) :
    getOrientation cmp A A B = .collinear ∧ getOrientation cmp A B A = .collinear ∧
    getOrientation cmp A B B = .collinear := by
  have hself : ∀ a : K, cmp.lt a a = false ∧ cmp.gt a a = false := by
    intro a
    have ht := hc.trichotomy a a
    have hr := hc.refl a
    simp [ExactlyOne, hr] at ht
    exact ht
  have key : ∀ a : K, orientationOf cmp a a = .collinear := by
    intro a; simp [orientationOf, hself a]
  refine ⟨?_, ?_, ?_⟩ <;> simp only [getOrientation, getOrientationV, P2.sub_x, P2.sub_y]
  · simp [key]
  · simp [key]
  · rw [mul_comm (B.y - A.y)]; exact key _

end Geometrix
