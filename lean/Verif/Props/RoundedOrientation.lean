import Verif.Lemmas.Rounded

/-!
# C112: the orientation predicate with rounding
-/

set_option linter.unusedSectionVars false

namespace Geometrix

open Spec

variable {K : Type*} [Field K] [LinearOrder K] [IsStrictOrderedRing K]

/-- Rounding to nearest with 53 bits, as for the type `double`, is a rounding function with relative error at most
`2^-53`. So the theorems below can be used with it. -/
theorem C112_double [FloorRing K] : RoundsWithin (1 / 2 ^ 53 : K) (roundBits 53) :=
  roundBits_rounds (by norm_num)

/-- C112: exchange of the last two points gives the opposite orientation, however the numbers are rounded. -/
theorem C112_swap (fl : K → K) (A B C : P2 K) :
    getOrientationR fl Cmp.direct A C B = (getOrientationR fl Cmp.direct A B C).opposite := by
  unfold getOrientationR getOrientationVR
  rw [mul_comm (subR fl C A).x, mul_comm (subR fl C A).y]
  generalize fl ((subR fl B A).y * (subR fl C A).x) = p
  generalize fl ((subR fl B A).x * (subR fl C A).y) = q
  obtain ⟨a1, a2, a3⟩ := orientation_direct p q
  obtain ⟨b1, b2, b3⟩ := orientation_direct q p
  rcases lt_trichotomy p q with h | h | h
  · rw [a2.2 h, b1.2 h]; rfl
  · rw [a3.2 h, b3.2 h.symm]; rfl
  · rw [a1.2 h, b2.2 h]; rfl

/-- C112: two vectors are never reported to turn to the wrong side; the only error is to be reported as collinear. -/
theorem C112_vectors {fl : K → K} (hm : Monotone fl) (u v : P2 K) :
    (getOrientationVR fl Cmp.direct u v = .left → 0 < u.x * v.y - u.y * v.x) ∧
    (getOrientationVR fl Cmp.direct u v = .right → u.x * v.y - u.y * v.x < 0) ∧
    (u.x * v.y - u.y * v.x = 0 → getOrientationVR fl Cmp.direct u v = .collinear) := by
  unfold getOrientationVR
  obtain ⟨a1, a2, a3⟩ := orientation_direct (fl (u.x * v.y)) (fl (u.y * v.x))
  refine ⟨fun h => ?_, fun h => ?_, fun h => a3.2 (by rw [sub_eq_zero.1 h])⟩
  · have := hm.reflect_lt (a1.1 h)
    linarith
  · have := hm.reflect_lt (a2.1 h)
    linarith

example [FloorRing K] : Monotone (roundBits 53 : K → K) := C112_double.mono

/-- C112: the same for three points whose coordinate differences are not changed by rounding. -/
theorem C112_points {fl : K → K} (hm : Monotone fl) (A B C : P2 K) (h1 : fl (B.x - A.x) = B.x - A.x)
    (h2 : fl (B.y - A.y) = B.y - A.y) (h3 : fl (C.x - A.x) = C.x - A.x) (h4 : fl (C.y - A.y) = C.y - A.y) :
    (getOrientationR fl Cmp.direct A B C = .left → 0 < area2 A B C) ∧
    (getOrientationR fl Cmp.direct A B C = .right → area2 A B C < 0) ∧
    (area2 A B C = 0 → getOrientationR fl Cmp.direct A B C = .collinear) := by
  have e : area2 A B C = (subR fl B A).x * (subR fl C A).y - (subR fl B A).y * (subR fl C A).x := by
    rw [area2_products]
    simp only [subR, h1, h2, h3, h4]
  rw [e]
  exact C112_vectors hm _ _

example : roundBits 53 ((1 / 2 : ℚ) - 3) = 1 / 2 - 3 ∧ roundBits 53 ((7 : ℚ) - 3) = 7 - 3 := by decide +kernel

/-- C112: for points whose coordinates are integers of absolute value at most `2^k` the result is exact if the numbers have
at least `2 k + 2` bits. For `double` this is `k = 25`. -/
theorem C112_integers [FloorRing K] {p k : Nat} (hk : 2 * k + 2 ≤ p) {ax ay bx b_y cx cy : ℤ} (hax : |ax| ≤ 2 ^ k)
    (hay : |ay| ≤ 2 ^ k) (hbx : |bx| ≤ 2 ^ k) (hby : |b_y| ≤ 2 ^ k) (hcx : |cx| ≤ 2 ^ k) (hcy : |cy| ≤ 2 ^ k) :
    let A : P2 K := ⟨ax, ay⟩
    let B : P2 K := ⟨bx, b_y⟩
    let C : P2 K := ⟨cx, cy⟩
    (getOrientationR (roundBits p) Cmp.direct A B C = .left ↔ 0 < area2 A B C) ∧
    (getOrientationR (roundBits p) Cmp.direct A B C = .right ↔ area2 A B C < 0) ∧
    (getOrientationR (roundBits p) Cmp.direct A B C = .collinear ↔ area2 A B C = 0) := by
  intro A B C
  have hd : ∀ m n : ℤ, |m| ≤ 2 ^ k → |n| ≤ 2 ^ k → |m - n| ≤ 2 ^ (k + 1) := by
    intro m n hm hn
    have := abs_sub m n
    rw [pow_succ]; linarith
  have hle : (2 : ℤ) ^ (k + 1) * 2 ^ (k + 1) ≤ 2 ^ p := by
    rw [← pow_add]
    exact pow_le_pow_right₀ (by norm_num) (by omega)
  have hone : (1 : ℤ) ≤ 2 ^ (k + 1) := one_le_pow₀ (by norm_num)
  have hs : ∀ m n : ℤ, |m| ≤ 2 ^ k → |n| ≤ 2 ^ k → roundBits p ((m : K) - n) = ((m - n : ℤ) : K) := by
    intro m n hm hn
    have := roundBits_int (K := K) (p := p) (by omega) (n := m - n) (by nlinarith [hd m n hm hn])
    rw [← this]; push_cast; rfl
  have hp : ∀ m n : ℤ, |m| ≤ 2 ^ (k + 1) → |n| ≤ 2 ^ (k + 1) →
      roundBits p ((m : K) * n) = ((m * n : ℤ) : K) := by
    intro m n hm hn
    have := roundBits_int (K := K) (p := p) (by omega) (n := m * n) (by
      rw [abs_mul]
      exact le_trans (mul_le_mul hm hn (abs_nonneg _) (by positivity)) hle)
    rw [← this]; push_cast; rfl
  have e1 : roundBits p ((subR (roundBits p) B A).x * (subR (roundBits p) C A).y) =
      (B.x - A.x) * (C.y - A.y) := by
    simp only [subR, A, B, C]
    rw [hs _ _ hbx hax, hs _ _ hcy hay, hp _ _ (hd _ _ hbx hax) (hd _ _ hcy hay)]
    push_cast; rfl
  have e2 : roundBits p ((subR (roundBits p) B A).y * (subR (roundBits p) C A).x) =
      (B.y - A.y) * (C.x - A.x) := by
    simp only [subR, A, B, C]
    rw [hs _ _ hby hay, hs _ _ hcx hax, hp _ _ (hd _ _ hby hay) (hd _ _ hcx hax)]
    push_cast; rfl
  unfold getOrientationR getOrientationVR
  rw [e1, e2, area2_products]
  obtain ⟨a1, a2, a3⟩ := orientation_direct ((B.x - A.x) * (C.y - A.y)) ((B.y - A.y) * (C.x - A.x))
  rw [a1, a2, a3, sub_pos, sub_neg, sub_eq_zero]
  exact ⟨Iff.rfl, Iff.rfl, Iff.rfl⟩

example : |(33554432 : ℤ)| ≤ 2 ^ 25 ∧ 2 * 25 + 2 ≤ 53 := by norm_num

/-- C112: the result is exact if the area of the triangle is not small against the two products that are compared. The full
property, that it is always exact, does not hold: see `C112_side_refuted`. -/
theorem C112_far_partial {u : K} {fl : K → K} (h : RoundsWithin u fl) (A B C : P2 K)
    (hA : ((1 + u) ^ 3 - 1) * (|(B.x - A.x) * (C.y - A.y)| + |(B.y - A.y) * (C.x - A.x)|) < |area2 A B C|) :
    (getOrientationR fl Cmp.direct A B C = .left ↔ 0 < area2 A B C) ∧
    (getOrientationR fl Cmp.direct A B C = .right ↔ area2 A B C < 0) ∧
    getOrientationR fl Cmp.direct A B C ≠ .collinear := by
  have he := orientation_error h A B C
  unfold getOrientationR getOrientationVR
  obtain ⟨a1, a2, a3⟩ := orientation_direct (fl ((subR fl B A).x * (subR fl C A).y))
    (fl ((subR fl B A).y * (subR fl C A).x))
  have he' := lt_of_le_of_lt he hA
  rw [abs_le] at he
  rw [Ne, a1, a2, a3]
  rcases lt_or_ge (area2 A B C) 0 with hn | hn
  · rw [abs_of_neg hn, abs_lt] at he'
    refine ⟨⟨fun _ => by linarith, fun _ => by linarith⟩, ⟨fun _ => hn, fun _ => by linarith⟩, fun _ => by linarith⟩
  · rw [abs_of_nonneg hn, abs_lt] at he'
    have : area2 A B C ≠ 0 := by
      intro h0
      rw [h0] at he'
      linarith [he'.1, he'.2]
    have hp := lt_of_le_of_ne hn this.symm
    refine ⟨⟨fun _ => hp, fun _ => by linarith⟩, ⟨fun _ => by linarith, fun _ => by linarith⟩, fun _ => by linarith⟩

example : ((1 + 1 / 2 ^ 53 : ℚ) ^ 3 - 1) * (|((1 : ℚ) - 0) * (1 - 0)| + |((0 : ℚ) - 0) * (0 - 0)|) <
    |area2 (⟨0, 0⟩ : P2 ℚ) ⟨1, 0⟩ ⟨0, 1⟩| := by
  norm_num [area2]

/-- C112: with an absolute tolerance `e` that is not too small against the two products the wrong side is never reported;
and the right side is reported if the area is larger than the tolerance by a margin. -/
theorem C112_tolerance {u : K} {fl : K → K} (h : RoundsWithin u fl) (hu : u < 1) {e : K} (A B C : P2 K)
    (he : ((1 + u) ^ 3 - 1) * (1 + u) *
      (|(B.x - A.x) * (C.y - A.y)| + |(B.y - A.y) * (C.x - A.x)|) ≤ e) :
    (getOrientationR fl (Cmp.absoluteR fl e) A B C = .left → 0 < area2 A B C) ∧
    (getOrientationR fl (Cmp.absoluteR fl e) A B C = .right → area2 A B C < 0) ∧
    (e * (1 / (1 - u) + 1 / (1 + u)) < area2 A B C → getOrientationR fl (Cmp.absoluteR fl e) A B C = .left) ∧
    (area2 A B C < -(e * (1 / (1 - u) + 1 / (1 + u))) → getOrientationR fl (Cmp.absoluteR fl e) A B C = .right) := by
  have hx := orientation_error h A B C
  have hu0 := h.u_nonneg
  set S := |(B.x - A.x) * (C.y - A.y)| + |(B.y - A.y) * (C.x - A.x)| with hS
  have hS0 : 0 ≤ S := by positivity
  unfold getOrientationR getOrientationVR
  generalize hp : fl ((subR fl B A).x * (subR fl C A).y) = p at hx ⊢
  generalize hq : fl ((subR fl B A).y * (subR fl C A).x) = q at hx ⊢
  have hε : 0 ≤ (1 + u) ^ 3 - 1 := by
    have := one_le_pow₀ (show 1 ≤ 1 + u by linarith) (n := 3)
    linarith
  have he0 : 0 ≤ e := le_trans (by positivity) he
  have hn := h.near (p - q)
  have hu1 : 0 < 1 - u := by linarith
  have hu2 : 0 < 1 + u := by linarith
  have hεS : ((1 + u) ^ 3 - 1) * S ≤ e / (1 + u) := by
    rw [le_div_iff₀ hu2]; linarith
  have hsplit : e * (1 / (1 - u) + 1 / (1 + u)) = e / (1 - u) + e / (1 + u) := by ring
  have hd0 : 0 ≤ e / (1 - u) := by positivity
  -- the side of the rounded difference
  have hL : fl (p - q) > e → e / (1 + u) < p - q := by
    intro hgt
    rcases le_or_gt (p - q) 0 with h0 | h0
    · have := h.mono h0
      rw [h.zero] at this
      linarith
    · rw [abs_of_pos h0, abs_le] at hn
      rw [div_lt_iff₀ hu2]
      linarith [hn.2]
  have hR : fl (p - q) < -e → p - q < -(e / (1 + u)) := by
    intro hgt
    rcases le_or_gt 0 (p - q) with h0 | h0
    · have := h.mono h0
      rw [h.zero] at this
      linarith
    · rw [abs_of_neg h0, abs_le] at hn
      rw [lt_neg, div_lt_iff₀ hu2]
      linarith [hn.1]
  have hL' : e / (1 - u) < p - q → fl (p - q) > e := by
    intro hgt
    rw [div_lt_iff₀ hu1] at hgt
    have h0 : 0 < p - q := lt_of_le_of_lt hd0 (by rwa [div_lt_iff₀ hu1])
    rw [abs_of_pos h0, abs_le] at hn
    linarith [hn.1]
  have hR' : p - q < -(e / (1 - u)) → fl (p - q) < -e := by
    intro hgt
    have h0 : p - q < 0 := lt_of_lt_of_le hgt (by linarith)
    rw [lt_neg, div_lt_iff₀ hu1] at hgt
    rw [abs_of_neg h0, abs_le] at hn
    linarith [hn.2]
  rw [abs_le] at hx
  have o : orientationOf (Cmp.absoluteR fl e) p q =
      if fl (p - q) < -e then .right else if fl (p - q) > e then .left else .collinear := by
    simp only [orientationOf, Cmp.absoluteR, decide_eq_true_eq]
  rw [o, hsplit]
  refine ⟨fun ho => ?_, fun ho => ?_, fun ho => ?_, fun ho => ?_⟩
  · split_ifs at ho with k1 k2
    have := hL k2
    linarith [hx.2]
  · split_ifs at ho with k1 k2
    have := hR k1
    linarith [hx.1]
  · have := hL' (by linarith [hx.1])
    rw [if_neg (by linarith), if_pos this]
  · have := hR' (by linarith [hx.2])
    rw [if_pos this]

example : ((1 + 1 / 2 ^ 53 : ℚ) ^ 3 - 1) * (1 + 1 / 2 ^ 53) *
    (|((100 : ℚ) - 0) * (100 - 0)| + |((0 : ℚ) - 0) * (0 - 0)|) ≤ 1 / 10 ^ 10 := by
  norm_num

/-- C112, refuted: with the numbers of the type `double` and the direct comparison three points that turn left are reported
to turn right. -/
theorem C112_side_refuted :
    let A : P2 ℚ := ⟨1 / 2 + 2 / 2 ^ 52, 1 / 2 + 6 / 2 ^ 52⟩
    let B : P2 ℚ := ⟨3, 3⟩
    let C : P2 ℚ := ⟨5, 5⟩
    roundBits 53 A.x = A.x ∧ roundBits 53 A.y = A.y ∧ 0 < area2 A B C ∧
      getOrientationR (roundBits 53) Cmp.direct A B C = .right := by
  decide +kernel

/-- C112, refuted: the answer depends on the point that comes first. -/
theorem C112_cyclic_refuted :
    let A : P2 ℚ := ⟨1 / 2 + 2 / 2 ^ 52, 1 / 2 + 6 / 2 ^ 52⟩
    let B : P2 ℚ := ⟨3, 3⟩
    let C : P2 ℚ := ⟨5, 5⟩
    getOrientationR (roundBits 53) Cmp.direct A B C ≠ getOrientationR (roundBits 53) Cmp.direct B C A := by
  decide +kernel

end Geometrix
