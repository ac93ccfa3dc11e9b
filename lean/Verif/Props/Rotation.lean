import Verif.Lemmas.Rotation

/-!
# C30 and C31: rotations and splitting a segment
-/

set_option linter.unusedSectionVars false

namespace Geometrix

open Spec

variable {K : Type*} [Field K] [LinearOrder K] [IsStrictOrderedRing K]

/-- The rotation made from two unit vectors turns the first into the second. -/
theorem C30_first_to_second (v1 v2 : P2 K) (h1 : v1.x ^ 2 + v1.y ^ 2 = 1) :
    rotateVector v1 v1 v2 = v2 := by
  simp only [rotateVector, makeRotation, Mat2.mulVec, dot, cross]
  ext
  · simp only; linear_combination v2.x * h1
  · simp only; linear_combination v2.y * h1

/-- Rotating keeps the distances of points, the orientation and area of triangles, and the origin. -/
theorem C30_isometry (v1 v2 o A B C : P2 K) (h1 : v1.x ^ 2 + v1.y ^ 2 = 1)
    (h2 : v2.x ^ 2 + v2.y ^ 2 = 1) :
    sqDist (rotatePoint A v1 v2 o) (rotatePoint B v1 v2 o) = sqDist A B ∧
    area2 (rotatePoint A v1 v2 o) (rotatePoint B v1 v2 o) (rotatePoint C v1 v2 o) = area2 A B C ∧
    rotatePoint o v1 v2 o = o := by
  have hc : (v1.x * v2.x + v1.y * v2.y) ^ 2 + (v1.x * v2.y - v1.y * v2.x) ^ 2 = 1 := by
    linear_combination (v2.x ^ 2 + v2.y ^ 2) * h1 + h2
  simp only [rotatePoint, rotatePointM, makeRotation, Mat2.mulVec, dot, cross, sqDist, area2,
    P2.add_x, P2.add_y, P2.sub_x, P2.sub_y]
  generalize v1.x * v2.x + v1.y * v2.y = c at hc ⊢
  generalize v1.x * v2.y - v1.y * v2.x = s at hc ⊢
  refine ⟨?_, ?_, ?_⟩
  · linear_combination ((A.x - B.x) ^ 2 + (A.y - B.y) ^ 2) * hc
  · linear_combination ((B.x - A.x) * (C.y - A.y) - (B.y - A.y) * (C.x - A.x)) * hc
  · ext <;> simp

/-- Rotating vectors keeps dot and cross products, hence lengths and angles. -/
theorem C30_vector (v1 v2 u w : P2 K) (h1 : v1.x ^ 2 + v1.y ^ 2 = 1) (h2 : v2.x ^ 2 + v2.y ^ 2 = 1) :
    dot (rotateVector u v1 v2) (rotateVector w v1 v2) = u.x * w.x + u.y * w.y ∧
    cross (rotateVector u v1 v2) (rotateVector w v1 v2) = u.x * w.y - u.y * w.x := by
  have hc : (v1.x * v2.x + v1.y * v2.y) ^ 2 + (v1.x * v2.y - v1.y * v2.x) ^ 2 = 1 := by
    linear_combination (v2.x ^ 2 + v2.y ^ 2) * h1 + h2
  simp only [rotateVector, makeRotation, Mat2.mulVec, dot, cross]
  generalize v1.x * v2.x + v1.y * v2.y = c at hc ⊢
  generalize v1.x * v2.y - v1.y * v2.x = s at hc ⊢
  constructor
  · linear_combination (u.x * w.x + u.y * w.y) * hc
  · linear_combination (u.x * w.y - u.y * w.x) * hc

/-- The sequence versions rotate, and then translate, each point. -/
theorem C30_sequences (poly : List (P2 K)) (v1 v2 t o : P2 K) :
    rotatePoints poly v1 v2 o = poly.map (fun p => rotatePoint p v1 v2 o) ∧
    rotateTranslatePoints poly v1 v2 t o = poly.map (fun p => rotatePoint p v1 v2 o + t) := ⟨rfl, rfl⟩

/-- Rotating back undoes a rotation. -/
theorem C30_inverse (v1 v2 o A : P2 K) (h1 : v1.x ^ 2 + v1.y ^ 2 = 1) (h2 : v2.x ^ 2 + v2.y ^ 2 = 1) :
    rotatePoint (rotatePoint A v1 v2 o) v2 v1 o = A := by
  have hc : (v1.x * v2.x + v1.y * v2.y) ^ 2 + (v1.x * v2.y - v1.y * v2.x) ^ 2 = 1 := by
    linear_combination (v2.x ^ 2 + v2.y ^ 2) * h1 + h2
  simp only [rotatePoint, rotatePointM, makeRotation, Mat2.mulVec, dot, cross]
  ext
  · simp only [P2.add_x, P2.add_y, P2.sub_x, P2.sub_y]; linear_combination (A.x - o.x) * hc
  · simp only [P2.add_x, P2.add_y, P2.sub_x, P2.sub_y]; linear_combination (A.y - o.y) * hc

example : ((3 / 5 : ℚ)) ^ 2 + (4 / 5) ^ 2 = 1 ∧ ((0 : ℚ)) ^ 2 + (-1) ^ 2 = 1 := by norm_num

/-- For every segment and every size that is not zero the recursion ends, and the segment is divided into
`2 ^ n` equal pieces in order from the start to the end, with the least `n` for which no piece is longer
than the size. -/
theorem C31_split_segment [Archimedean K] (A B : P2 K) (maxSize : K) (h : maxSize ≠ 0) :
    ∃ n : Nat, (∀ fuel, n < fuel → splitSegment fuel A B maxSize =
        .ok ((List.range (2 ^ n)).map fun k : Nat =>
          (A + ((k : K) / 2 ^ n) • (B - A), A + (((k : K) + 1) / 2 ^ n) • (B - A)))) ∧
      (∀ k : Nat, sqDist (A + ((k : K) / 2 ^ n) • (B - A)) (A + (((k : K) + 1) / 2 ^ n) • (B - A)) ≤
        maxSize ^ 2) ∧
      (∀ m < n, maxSize ^ 2 < sqDist A B / 4 ^ m) := by
  have hm : 0 < maxSize * maxSize := mul_self_pos.mpr h
  have hex : ∃ n : Nat, distSq A B ≤ 4 ^ n * (maxSize * maxSize) := by
    obtain ⟨n, hn⟩ := exists_nat_gt (distSq A B / (maxSize * maxSize))
    refine ⟨n, ?_⟩
    have h1 : (n : K) ≤ 4 ^ n := by
      exact_mod_cast (Nat.lt_pow_self (by norm_num : 1 < 4)).le
    rw [div_lt_iff₀ hm] at hn
    nlinarith
  classical
  have hsq : sqDist A B = distSq A B := by
    simp only [sqDist, distSq, normSq, dot, P2.sub_x, P2.sub_y]; ring
  refine ⟨Nat.find hex, fun fuel hf => ?_, fun k => ?_, fun m hm' => ?_⟩
  · exact splitRec_spec (maxSize * maxSize) _ fuel A B hf (Nat.find_spec hex)
      (fun k hk => not_le.mp (Nat.find_min hex hk))
  · have h1 := Nat.find_spec hex
    set n := Nat.find hex
    have h2 : (2 : K) ^ n ≠ 0 := by positivity
    have e : sqDist (A + ((k : K) / 2 ^ n) • (B - A)) (A + (((k : K) + 1) / 2 ^ n) • (B - A)) =
        distSq A B / (2 ^ n) ^ 2 := by
      rw [← hsq]
      simp only [sqDist, P2.add_x, P2.add_y, P2.smul_x, P2.smul_y, P2.sub_x, P2.sub_y]
      field_simp; ring
    rw [e, div_le_iff₀ (by positivity), ← pow_mul, mul_comm n 2, pow_mul,
      show (2 : K) ^ 2 = 4 by norm_num]
    linarith
  · have := not_le.mp (Nat.find_min hex hm')
    rw [hsq, lt_div_iff₀ (by positivity)]
    linarith

example : ((1 : ℚ)) ≠ 0 := by norm_num

example : (match splitSegment 5 (⟨0, 0⟩ : P2 ℚ) ⟨2, 0⟩ 1 with
    | .ok l => l == [(⟨0, 0⟩, ⟨1, 0⟩), (⟨1, 0⟩, ⟨2, 0⟩)]
    | _ => false) = true := by decide +kernel

/-- With size zero the recursion never ends for a segment of positive length. -/
theorem C31_zero_size (fuel : Nat) (A B : P2 K) (h : A ≠ B) :
    splitSegment fuel A B 0 = .error .diverges := by
  have key : ∀ (fuel : Nat) (A B : P2 K), A ≠ B →
      splitSegmentRec (0 : K) fuel A B = .error .diverges := by
    intro fuel
    induction fuel with
    | zero => intro A B _; rfl
    | succ f ih =>
      intro A B h
      have h1 : 0 < distSq A B := normSq_pos (sub_ne_zero_P2 h)
      unfold splitSegmentRec
      rw [if_pos h1, ih]
      intro he
      have : distSq A (A + (1 / 2 : K) • (B - A)) = 0 := by
        rw [← he]; simp [distSq, normSq, dot]
      rw [distSq_half_left] at this
      linarith
  unfold splitSegment
  rw [mul_zero]
  exact key fuel A B h

end Geometrix
