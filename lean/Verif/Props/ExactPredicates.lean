import Mathlib.Data.Rat.Floor
import Mathlib.Tactic.LinearCombination
import Verif.Lemmas.ExactPredicates
import Verif.Lemmas.RoundAcc
import Verif.Lemmas.Rounding

/-!
# C120: the exact predicates for planes, circles and spheres
-/

set_option linter.unusedSectionVars false

namespace Geometrix

open Spec

variable {K : Type*} [Field K] [LinearOrder K] [IsStrictOrderedRing K] [FloorRing K]

/-- C120, if there is something to read behind the arrays: after `exactinit`, `orient3dexact` returns a number that has the
sign of the exact determinant, stores nothing behind the end of an array, and is off by at most three quarters of its value.
Not proved for arrays that end where they are declared to end, because it is false. -/
theorem C120_orient3d_partial {p turns : Nat} (hp : 6 ≤ p) (ht : p ≤ turns) {c : ExactConsts K}
    (hc : exactInit (roundBits p) turns = .ok c) {A B C D : P3 K} (hA : FloatPoint3 p A) (hB : FloatPoint3 p B)
    (hC : FloatPoint3 p C) (hD : FloatPoint3 p D) :
    ∃ r, orient3dExact (roundBits p) true c.splitter A B C D = .ok r ∧
      (0 < r ↔ 0 < det3 (A - D) (B - D) (C - D)) ∧ (r < 0 ↔ det3 (A - D) (B - D) (C - D) < 0) ∧
      (r = 0 ↔ det3 (A - D) (B - D) (C - D) = 0) ∧ |det3 (A - D) (B - D) (C - D) - r| ≤ 3 / 4 * |r| := by
  rw [exactInit_eq hp ht, Except.ok.injEq] at hc
  subst hc
  obtain ⟨r, h1, h3, h2⟩ := orient3dExact_sign hp hA hB hC hD
  refine ⟨r, h1, ?_⟩
  rw [← sign_eq_one_iff, h2, sign_eq_one_iff, ← sign_eq_neg_one_iff, h2, sign_eq_neg_one_iff, ← sign_eq_zero_iff, h2,
    sign_eq_zero_iff]
  exact ⟨Iff.rfl, Iff.rfl, Iff.rfl, h3⟩

/-- Four points that are nearly in one plane, for which `orient3dfast` says that they are in one plane. -/
example : FloatPoint3 53 (⟨1, 0, 1⟩ : P3 ℚ) ∧ FloatPoint3 53 (⟨0, 1, -1⟩ : P3 ℚ) ∧
    FloatPoint3 53 (⟨0, 0, 1 / 2 ^ 60⟩ : P3 ℚ) ∧ FloatPoint3 53 (⟨1, 1, 0⟩ : P3 ℚ) :=
  ⟨⟨⟨1, 0, by decide +kernel, by norm_num⟩, ⟨0, 0, by decide +kernel, by norm_num⟩, ⟨1, 0, by decide +kernel, by norm_num⟩⟩,
    ⟨⟨0, 0, by decide +kernel, by norm_num⟩, ⟨1, 0, by decide +kernel, by norm_num⟩, ⟨-1, 0, by decide +kernel, by norm_num⟩⟩,
    ⟨⟨0, 0, by decide +kernel, by norm_num⟩, ⟨0, 0, by decide +kernel, by norm_num⟩, ⟨1, -60, by decide +kernel, by norm_num⟩⟩,
    ⟨⟨1, 0, by decide +kernel, by norm_num⟩, ⟨1, 0, by decide +kernel, by norm_num⟩, ⟨0, 0, by decide +kernel, by norm_num⟩⟩⟩

example : orient3dExact (roundBits 53) true (exactConsts ℚ 53).splitter ⟨1, 0, 1⟩ ⟨0, 1, -1⟩ ⟨0, 0, 1 / 2 ^ 60⟩ ⟨1, 1, 0⟩ =
      .ok (-1 / 2 ^ 60) ∧
    orient3dFast (roundBits 53 : ℚ → ℚ) ⟨1, 0, 1⟩ ⟨0, 1, -1⟩ ⟨0, 0, 1 / 2 ^ 60⟩ ⟨1, 1, 0⟩ = 0 := by decide +kernel

/-- C120: the sign of the determinant says on which side of the plane of `A`, `B` and `C` the point `D` lies: it is negative
if `D` is in front of the plane, on the side to which the vector product of `B - A` and `C - A` points. -/
theorem C120_plane (A B C D : P3 K) (t : K) (F : P3 K) (u v : K)
    (hF : F = A + u • (B - A) + v • (C - A))
    (hD : D = F + t • ⟨(B.y - A.y) * (C.z - A.z) - (B.z - A.z) * (C.y - A.y),
      (B.z - A.z) * (C.x - A.x) - (B.x - A.x) * (C.z - A.z), (B.x - A.x) * (C.y - A.y) - (B.y - A.y) * (C.x - A.x)⟩)
    (hn : ¬ ((B.y - A.y) * (C.z - A.z) - (B.z - A.z) * (C.y - A.y) = 0 ∧
      (B.z - A.z) * (C.x - A.x) - (B.x - A.x) * (C.z - A.z) = 0 ∧ (B.x - A.x) * (C.y - A.y) - (B.y - A.y) * (C.x - A.x) = 0)) :
    (0 < det3 (A - D) (B - D) (C - D) ↔ t < 0) ∧ (det3 (A - D) (B - D) (C - D) < 0 ↔ 0 < t) := by
  set nx := (B.y - A.y) * (C.z - A.z) - (B.z - A.z) * (C.y - A.y) with hnx
  set ny := (B.z - A.z) * (C.x - A.x) - (B.x - A.x) * (C.z - A.z) with hny
  set nz := (B.x - A.x) * (C.y - A.y) - (B.y - A.y) * (C.x - A.x) with hnz
  have key : det3 (A - D) (B - D) (C - D) = -t * (nx ^ 2 + ny ^ 2 + nz ^ 2) := by
    rw [hD, hF]
    simp only [det3, P3.sub_x, P3.sub_y, P3.sub_z, P3.add_x, P3.add_y, P3.add_z, P3.smul_x, P3.smul_y, P3.smul_z]
    rw [hnx, hny, hnz]
    ring
  have hpos : 0 < nx ^ 2 + ny ^ 2 + nz ^ 2 := by
    rcases eq_or_ne nx 0 with h1 | h1
    · rcases eq_or_ne ny 0 with h2 | h2
      · have h3 : nz ≠ 0 := fun h3 => hn ⟨h1, h2, h3⟩
        positivity
      · positivity
    · positivity
  rw [key, mul_pos_iff_of_pos_right hpos]
  constructor
  · exact neg_pos
  · rw [← neg_pos, show -(-t * (nx ^ 2 + ny ^ 2 + nz ^ 2)) = t * (nx ^ 2 + ny ^ 2 + nz ^ 2) by ring,
      mul_pos_iff_of_pos_right hpos]

example : (⟨1 / 4, 1 / 4, 2⟩ : P3 ℚ) = (⟨1 / 4, 1 / 4, 0⟩ : P3 ℚ) + (2 : ℚ) • (⟨0, 0, 1⟩ : P3 ℚ) ∧
    (⟨1 / 4, 1 / 4, 0⟩ : P3 ℚ) = (⟨0, 0, 0⟩ : P3 ℚ) + (1 / 4 : ℚ) • ((⟨1, 0, 0⟩ : P3 ℚ) - ⟨0, 0, 0⟩) +
      (1 / 4 : ℚ) • ((⟨0, 1, 0⟩ : P3 ℚ) - ⟨0, 0, 0⟩) := by decide +kernel

/-- C120, if there is something to read behind the arrays: the value of `incircleexact` has the sign of the determinant. -/
theorem C120_incircle_partial {p turns : Nat} (hp : 6 ≤ p) (ht : p ≤ turns) {c : ExactConsts K}
    (hc : exactInit (roundBits p) turns = .ok c) {A B C D : P2 K} (hA : FloatPoint p A) (hB : FloatPoint p B)
    (hC : FloatPoint p C) (hD : FloatPoint p D) :
    ∃ r, incircleExact (roundBits p) true c.splitter A B C D = .ok r ∧
      (0 < r ↔ 0 < circleDet A B C D) ∧ (r < 0 ↔ circleDet A B C D < 0) ∧ (r = 0 ↔ circleDet A B C D = 0) ∧
      |circleDet A B C D - r| ≤ 3 / 4 * |r| := by
  rw [exactInit_eq hp ht, Except.ok.injEq] at hc
  subst hc
  obtain ⟨r, h1, h3, h2⟩ := incircleExact_sign hp hA hB hC hD
  refine ⟨r, h1, ?_⟩
  rw [← sign_eq_one_iff, h2, sign_eq_one_iff, ← sign_eq_neg_one_iff, h2, sign_eq_neg_one_iff, ← sign_eq_zero_iff, h2,
    sign_eq_zero_iff]
  exact ⟨Iff.rfl, Iff.rfl, Iff.rfl, h3⟩

/-- C120: if `A`, `B` and `C` turn left, the determinant is positive just if `D` lies inside the circle through them, and zero
just if it lies on that circle. -/
theorem C120_circle {O A B C D : P2 K} (hO : Circumcentre O A B C) (hl : 0 < area2 A B C) :
    (0 < circleDet A B C D ↔ sqDist D O < sqDist A O) ∧ (circleDet A B C D = 0 ↔ sqDist D O = sqDist A O) ∧
      (circleDet A B C D < 0 ↔ sqDist A O < sqDist D O) := by
  obtain ⟨h1, h2⟩ := hO
  have key : circleDet A B C D = area2 A B C * (sqDist A O - sqDist D O) := by
    simp only [circleDet, det3, area2, sqDist] at *
    linear_combination ((C.x - D.x) * (A.y - D.y) - (A.x - D.x) * (C.y - D.y)) * h1 +
      ((A.x - D.x) * (B.y - D.y) - (B.x - D.x) * (A.y - D.y)) * h2
  rw [key, mul_pos_iff_of_pos_left hl, sub_pos, mul_eq_zero, or_iff_right hl.ne', sub_eq_zero]
  refine ⟨Iff.rfl, eq_comm, ?_⟩
  rw [← neg_pos, ← mul_neg, mul_pos_iff_of_pos_left hl, neg_sub, sub_pos]

/-- Three points of the unit circle, a point on that circle, and one that is outside by next to nothing, for which
`incirclefast` says that it is on the circle. -/
example : Circumcentre (⟨0, 0⟩ : P2 ℚ) ⟨1, 0⟩ ⟨0, 1⟩ ⟨-1, 0⟩ ∧ 0 < area2 (⟨1, 0⟩ : P2 ℚ) ⟨0, 1⟩ ⟨-1, 0⟩ := by
  unfold Circumcentre
  decide +kernel

example : incircleExact (roundBits 53) true (exactConsts ℚ 53).splitter ⟨1, 0⟩ ⟨0, 1⟩ ⟨-1, 0⟩ ⟨0, -1⟩ = .ok 0 ∧
    incircleExact (roundBits 53) true (exactConsts ℚ 53).splitter ⟨1, 0⟩ ⟨0, 1⟩ ⟨-1, 0⟩ ⟨1 / 2 ^ 60, -1⟩ = .ok (-1 / 2 ^ 119) ∧
    incircleFast (roundBits 53 : ℚ → ℚ) ⟨1, 0⟩ ⟨0, 1⟩ ⟨-1, 0⟩ ⟨1 / 2 ^ 60, -1⟩ = 0 := by decide +kernel

/-- C120, if there is something to read behind the arrays: the value of `insphereexact` has the sign of the determinant. -/
theorem C120_insphere_partial {p turns : Nat} (hp : 6 ≤ p) (ht : p ≤ turns) {c : ExactConsts K}
    (hc : exactInit (roundBits p) turns = .ok c) {A B C D E : P3 K} (hA : FloatPoint3 p A) (hB : FloatPoint3 p B)
    (hC : FloatPoint3 p C) (hD : FloatPoint3 p D) (hE : FloatPoint3 p E) :
    ∃ r, insphereExact (roundBits p) true c.splitter A B C D E = .ok r ∧
      (0 < r ↔ 0 < sphereDet A B C D E) ∧ (r < 0 ↔ sphereDet A B C D E < 0) ∧ (r = 0 ↔ sphereDet A B C D E = 0) ∧
      |sphereDet A B C D E - r| ≤ 3 / 4 * |r| := by
  rw [exactInit_eq hp ht, Except.ok.injEq] at hc
  subst hc
  obtain ⟨r, h1, h3, h2⟩ := insphereExact_sign hp hA hB hC hD hE
  refine ⟨r, h1, ?_⟩
  rw [← sign_eq_one_iff, h2, sign_eq_one_iff, ← sign_eq_neg_one_iff, h2, sign_eq_neg_one_iff, ← sign_eq_zero_iff, h2,
    sign_eq_zero_iff]
  exact ⟨Iff.rfl, Iff.rfl, Iff.rfl, h3⟩

/-- C120: if `orient3d` of `A`, `B`, `C` and `D` is positive, the determinant is positive just if `E` lies inside the sphere
through them, and zero just if it lies on that sphere. -/
theorem C120_sphere {O A B C D E : P3 K} (hO : Circumcentre3 O A B C D) (hl : 0 < det3 (A - D) (B - D) (C - D)) :
    (0 < sphereDet A B C D E ↔ sqDist3 E O < sqDist3 A O) ∧ (sphereDet A B C D E = 0 ↔ sqDist3 E O = sqDist3 A O) ∧
      (sphereDet A B C D E < 0 ↔ sqDist3 A O < sqDist3 E O) := by
  obtain ⟨h1, h2, h3⟩ := hO
  have key : sphereDet A B C D E = det3 (A - D) (B - D) (C - D) * (sqDist3 A O - sqDist3 E O) := by
    have e : sphereDet A B C D E - det3 (A - D) (B - D) (C - D) * (sqDist3 A O - sqDist3 E O) =
        (sqDist3 B O - sqDist3 A O) * det3 (A - E) (C - E) (D - E) - (sqDist3 C O - sqDist3 A O) * det3 (A - E) (B - E) (D - E) +
        (sqDist3 D O - sqDist3 A O) * det3 (A - E) (B - E) (C - E) := by
      simp only [sphereDet, det3, sqDist3, P3.sub_x, P3.sub_y, P3.sub_z]
      ring
    rw [h1, h2, h3] at e
    linear_combination e
  rw [key, mul_pos_iff_of_pos_left hl, sub_pos, mul_eq_zero, or_iff_right hl.ne', sub_eq_zero]
  refine ⟨Iff.rfl, eq_comm, ?_⟩
  rw [← neg_pos, ← mul_neg, mul_pos_iff_of_pos_left hl, neg_sub, sub_pos]

/-- Four points of the unit sphere, a point on it, and one that is outside by next to nothing. -/
example : Circumcentre3 (⟨0, 0, 0⟩ : P3 ℚ) ⟨1, 0, 0⟩ ⟨0, 1, 0⟩ ⟨0, 0, 1⟩ ⟨-1, 0, 0⟩ ∧
    0 < det3 ((⟨1, 0, 0⟩ : P3 ℚ) - ⟨-1, 0, 0⟩) (⟨0, 1, 0⟩ - ⟨-1, 0, 0⟩) (⟨0, 0, 1⟩ - ⟨-1, 0, 0⟩) := by
  unfold Circumcentre3
  decide +kernel

example : insphereExact (roundBits 53) true (exactConsts ℚ 53).splitter ⟨1, 0, 0⟩ ⟨0, 1, 0⟩ ⟨0, 0, 1⟩ ⟨-1, 0, 0⟩ ⟨0, -1, 0⟩ =
      .ok 0 ∧
    insphereExact (roundBits 53) true (exactConsts ℚ 53).splitter ⟨1, 0, 0⟩ ⟨0, 1, 0⟩ ⟨0, 0, 1⟩ ⟨-1, 0, 0⟩
      ⟨0, -1, 1 / 2 ^ 60⟩ = .ok (-1 / 2 ^ 119) ∧
    insphereFast (roundBits 53 : ℚ → ℚ) ⟨1, 0, 0⟩ ⟨0, 1, 0⟩ ⟨0, 0, 1⟩ ⟨-1, 0, 0⟩ ⟨0, -1, 1 / 2 ^ 60⟩ = 0 := by decide +kernel

/-- C120, full statement with arrays that end where they are declared to end: the functions return. They never do: an element
behind the end of an array is read in every call. -/
theorem C120_bounds_refuted (fl : K → K) (s : K) :
    (∀ A B C D : P3 K, orient3dExact fl false s A B C D = .error .outOfRange) ∧
    (∀ A B C D : P2 K, incircleExact fl false s A B C D = .error .outOfRange) ∧
    (∀ A B C D E : P3 K, insphereExact fl false s A B C D E = .error .outOfRange) := by
  have h1 (n : Nat) (e f : List K) : sumInto fl false n (.ok e) (.ok f) = .error .outOfRange := by
    simp only [sumInto, fastExpansionSumZ, fastExpansionSum_no_slack, into]
  have h2 (n : Nat) (x : Fault) (f : Res (List K)) : sumInto fl false n (.error x) f = .error x := rfl
  have h3 (n : Nat) (x : Fault) (b : K) : scaleInto fl s n (.error x) b = .error x := rfl
  have h4 (e : List K) (b : K) (n : Nat) :
      scaleInto fl s n (.ok e) b = .error .outOfRange ∨ ∃ l, scaleInto fl s n (.ok e) b = .ok l := by
    cases e with
    | nil => exact Or.inl rfl
    | cons x e =>
      simp only [scaleInto, scaleExpansionZ]
      generalize scaleLoopZ fl s b _ _ _ e _ = l
      rw [into]
      by_cases h : l.length ≤ n
      · exact Or.inr ⟨l, if_pos h⟩
      · exact Or.inl (if_neg h)
  have h5 (n : Nat) (e : List K) (f : Res (List K)) (hf : f = .error .outOfRange ∨ ∃ l, f = .ok l) :
      sumInto fl false n (.ok e) f = .error .outOfRange := by
    rcases hf with rfl | ⟨l, rfl⟩
    · rfl
    · exact h1 n e l
  have h6 (n : Nat) (e f : Res (List K)) (he : e = .error .outOfRange ∨ ∃ l, e = .ok l)
      (hf : f = .error .outOfRange ∨ ∃ l, f = .ok l) : sumInto fl false n e f = .error .outOfRange := by
    rcases he with rfl | ⟨l, rfl⟩
    · rfl
    · exact h5 n l f hf
  have h7 (u v w : List K) (x y z : K) : minor24 fl false s (.ok u) x (.ok v) y (.ok w) z = .error .outOfRange := by
    unfold minor24
    exact h6 _ _ _ (h4 _ _ _) (Or.inl (h6 _ _ _ (h4 _ _ _) (h4 _ _ _)))
  refine ⟨fun A B C D => ?_, fun A B C D => ?_, fun A B C D E => ?_⟩
  · simp only [orient3dExact, minors12, prodDiff, negated, h1, h2, h3, lastOf]
  · simp only [incircleExact, minors12, lift96, prodDiff, negated, h1, h2, h3, lastOf]
  · simp only [insphereExact, lift1152, prodDiff, negated, h2, h3, h7, lastOf]

/-- C120: what `orient3dfast` computes is off by at most a few units of rounding of the sizes of the products. -/
theorem C120_orient3d_fast {fl : K → K} {u : K} (hfl : RoundsWithin u fl) (hu : 0 ≤ u) (A B C D : P3 K) :
    |orient3dFast fl A B C D - det3 (A - D) (B - D) (C - D)| ≤ ((1 + u) ^ 8 - 1) *
      (|A.x - D.x| * (|B.y - D.y| * |C.z - D.z| + |B.z - D.z| * |C.y - D.y|) +
        |B.x - D.x| * (|C.y - D.y| * |A.z - D.z| + |C.z - D.z| * |A.y - D.y|) +
        |C.x - D.x| * (|A.y - D.y| * |B.z - D.z| + |A.z - D.z| * |B.y - D.y|)) := by
  have b := Acc.base hu hfl
  have m (x y z w : K) := (((b x).mul hu hfl (b y) le_rfl).sub hu hfl ((b z).mul hu hfl (b w) le_rfl) le_rfl)
  have t (v x y z w : K) := (b v).mul hu hfl (m x y z w) le_rfl
  have := ((t (A.x - D.x) (B.y - D.y) (C.z - D.z) (B.z - D.z) (C.y - D.y)).add hu hfl
    (t (B.x - D.x) (C.y - D.y) (A.z - D.z) (C.z - D.z) (A.y - D.y)) le_rfl).add hu hfl
    ((t (C.x - D.x) (A.y - D.y) (B.z - D.z) (A.z - D.z) (B.y - D.y)).mono hu (by norm_num)) le_rfl
  convert this.near using 2
  simp only [orient3dFast, det3, P3.sub_x, P3.sub_y, P3.sub_z]
  ring

/-- C120: the same for `incirclefast`. -/
theorem C120_incircle_fast {fl : K → K} {u : K} (hfl : RoundsWithin u fl) (hu : 0 ≤ u) (A B C D : P2 K) :
    |incircleFast fl A B C D - circleDet A B C D| ≤ ((1 + u) ^ 11 - 1) *
      (sqDist A D * (|B.x - D.x| * |C.y - D.y| + |C.x - D.x| * |B.y - D.y|) +
        sqDist B D * (|C.x - D.x| * |A.y - D.y| + |A.x - D.x| * |C.y - D.y|) +
        sqDist C D * (|A.x - D.x| * |B.y - D.y| + |B.x - D.x| * |A.y - D.y|)) := by
  have b := Acc.base hu hfl
  have m (x y z w : K) := (((b x).mul hu hfl (b y) le_rfl).sub hu hfl ((b z).mul hu hfl (b w) le_rfl) le_rfl)
  have l (x y : K) := (((b x).mul hu hfl (b x) le_rfl).add hu hfl ((b y).mul hu hfl (b y) le_rfl) le_rfl)
  have t (x y x1 y1 x2 y2 : K) := (l x y).mul hu hfl (m x1 y1 x2 y2) le_rfl
  have := ((t (A.x - D.x) (A.y - D.y) (B.x - D.x) (C.y - D.y) (C.x - D.x) (B.y - D.y)).add hu hfl
    (t (B.x - D.x) (B.y - D.y) (C.x - D.x) (A.y - D.y) (A.x - D.x) (C.y - D.y)) le_rfl).add hu hfl
    ((t (C.x - D.x) (C.y - D.y) (A.x - D.x) (B.y - D.y) (B.x - D.x) (A.y - D.y)).mono hu (by norm_num)) le_rfl
  have h := this.near
  rw [show circleDet A B C D = _ from ?_]
  · refine h.trans_eq ?_
    simp only [sqDist, abs_mul_abs_self]
    ring
  · simp only [circleDet, det3, sqDist]
    ring

/-- C120: the same for `inspherefast`. -/
theorem C120_insphere_fast {fl : K → K} {u : K} (hfl : RoundsWithin u fl) (hu : 0 ≤ u) (A B C D E : P3 K) :
    let minor (a b c : P3 K) : K := |a.z - E.z| * (|b.x - E.x| * |c.y - E.y| + |c.x - E.x| * |b.y - E.y|) +
      |b.z - E.z| * (|a.x - E.x| * |c.y - E.y| + |c.x - E.x| * |a.y - E.y|) +
      |c.z - E.z| * (|a.x - E.x| * |b.y - E.y| + |b.x - E.x| * |a.y - E.y|)
    |insphereFast fl A B C D E - sphereDet A B C D E| ≤ ((1 + u) ^ 16 - 1) *
      (sqDist3 D E * minor A B C + sqDist3 C E * minor A B D + sqDist3 B E * minor A C D + sqDist3 A E * minor B C D) := by
  have b := Acc.base hu hfl
  have m (x y z w : K) := (((b x).mul hu hfl (b y) le_rfl).sub hu hfl ((b z).mul hu hfl (b w) le_rfl) le_rfl)
  have l (x y z : K) := (((b x).mul hu hfl (b x) le_rfl).add hu hfl ((b y).mul hu hfl (b y) le_rfl) le_rfl).add hu hfl
    (((b z).mul hu hfl (b z) le_rfl).mono hu (show 3 ≤ 4 by norm_num)) le_rfl
  have t (v x y z w : K) := (b v).mul hu hfl (m x y z w) le_rfl
  have m1 (v1 x1 y1 z1 w1 v2 x2 y2 z2 w2 v3 x3 y3 z3 w3 : K) :=
    ((t v1 x1 y1 z1 w1).sub hu hfl (t v2 x2 y2 z2 w2) le_rfl).add hu hfl
    ((t v3 x3 y3 z3 w3).mono hu (show 6 ≤ 7 by norm_num)) le_rfl
  have m2 (v1 x1 y1 z1 w1 v2 x2 y2 z2 w2 v3 x3 y3 z3 w3 : K) :=
    ((t v1 x1 y1 z1 w1).add hu hfl (t v2 x2 y2 z2 w2) le_rfl).add hu hfl
    ((t v3 x3 y3 z3 w3).mono hu (show 6 ≤ 7 by norm_num)) le_rfl
  obtain ⟨ax, ay, az⟩ := A
  obtain ⟨bx, b_y, bz⟩ := B
  obtain ⟨cx, cy, cz⟩ := C
  obtain ⟨dx, dy, dz⟩ := D
  obtain ⟨ex, ey, ez⟩ := E
  have abc := m1 (az - ez) (bx - ex) (cy - ey) (cx - ex) (b_y - ey) (bz - ez) (ax - ex) (cy - ey) (cx - ex) (ay - ey)
    (cz - ez) (ax - ex) (b_y - ey) (bx - ex) (ay - ey)
  have bcd := m1 (bz - ez) (cx - ex) (dy - ey) (dx - ex) (cy - ey) (cz - ez) (bx - ex) (dy - ey) (dx - ex) (b_y - ey)
    (dz - ez) (bx - ex) (cy - ey) (cx - ex) (b_y - ey)
  have cda := m2 (cz - ez) (dx - ex) (ay - ey) (ax - ex) (dy - ey) (dz - ez) (ax - ex) (cy - ey) (cx - ex) (ay - ey)
    (az - ez) (cx - ex) (dy - ey) (dx - ex) (cy - ey)
  have dab := m2 (dz - ez) (ax - ex) (b_y - ey) (bx - ex) (ay - ey) (az - ez) (bx - ex) (dy - ey) (dx - ex) (b_y - ey)
    (bz - ez) (dx - ex) (ay - ey) (ax - ex) (dy - ey)
  have h := ((((l (dx - ex) (dy - ey) (dz - ez)).mul hu hfl abc le_rfl).sub hu hfl
    ((l (cx - ex) (cy - ey) (cz - ez)).mul hu hfl dab le_rfl) le_rfl).add hu hfl
    (((l (bx - ex) (b_y - ey) (bz - ez)).mul hu hfl cda le_rfl).sub hu hfl
    ((l (ax - ex) (ay - ey) (az - ez)).mul hu hfl bcd le_rfl) le_rfl) le_rfl).near
  intro minor
  rw [show sphereDet (⟨ax, ay, az⟩ : P3 K) ⟨bx, b_y, bz⟩ ⟨cx, cy, cz⟩ ⟨dx, dy, dz⟩ ⟨ex, ey, ez⟩ = _ from ?_]
  · refine h.trans_eq ?_
    simp only [minor, sqDist3, abs_mul_abs_self]
    ring
  · simp only [sphereDet, det3, sqDist3, P3.sub_x, P3.sub_y, P3.sub_z]
    ring

example : RoundsWithin (1 / 2 ^ 53 : ℚ) (roundBits 53) := roundBits_rounds (by norm_num)

end Geometrix
