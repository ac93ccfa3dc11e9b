import Verif.Lemmas.Capsule
import Verif.Model.MovingSphere
import Verif.Props.Obb

/-!
# C68, C69, C70: a segment against a capsule, a segment against a plane, a sphere against an oriented box
-/

set_option linter.unusedSectionVars false

namespace Geometrix

open Spec

/-- C68: a segment that is not parallel to the axis of a capsule and starts outside the capsule. The answer is `true`
exactly if the segment has a point in the capsule, and then the parameter is that of the first such point, and the
point is that point. The full statement has no hypothesis on the segment. Missing: parallel segments, segments that
start in the capsule. -/
theorem C68_capsule_partial (sa sb p q : P2 ℝ) (r : ℝ) (hr : 0 ≤ r) (hpar : ¬ Parallel (sb - sa) (q - p))
    (hout : ¬ DiscMeets (OnSegment p q) sa r) : ∃ o : Option ℝ,
    segCapsule Cmp.direct sa sb p q r = .ok (o.map fun t => ⟨some t, some (sa + t • (sb - sa))⟩) ∧
    IsFirst (fun t => 0 ≤ t ∧ t ≤ 1) (fun t => DiscMeets (OnSegment p q) (sa + t • (sb - sa)) r) o :=
  segCapsule_spec sa sb p q r hr hpar hout

/-- A segment that runs into the end cap. -/
example : ¬ Parallel ((⟨0, 0⟩ : P2 ℝ) - ⟨-3, 1⟩) (⟨4, 0⟩ - ⟨0, 0⟩) ∧
    ¬ DiscMeets (OnSegment ⟨0, 0⟩ ⟨4, 0⟩) (⟨-3, 1⟩ : P2 ℝ) 1 ∧
    DiscMeets (OnSegment ⟨0, 0⟩ ⟨4, 0⟩) ((⟨-3, 1⟩ : P2 ℝ) + (1 : ℝ) • (⟨0, 0⟩ - ⟨-3, 1⟩)) 1 := by
  refine ⟨?_, ?_, ⟨0, 0⟩, ⟨0, by norm_num, by norm_num, by ext <;> simp⟩, by norm_num [InDisc]⟩
  · rintro (⟨t, h⟩ | ⟨t, h⟩)
    · have hx := congrArg P2.x h
      have hy := congrArg P2.y h
      norm_num at hx hy
      rw [hy] at hx; norm_num at hx
    · have := congrArg P2.y h; norm_num at this
  · rintro ⟨P, ⟨t, h0, -, rfl⟩, hd⟩
    unfold InDisc at hd
    norm_num at hd
    nlinarith

/-- C68, disagreement: a segment parallel to the axis, both inside and outside the capsule. The test for parallel
segments compares an absolute value with zero and never holds, so a division by zero follows. -/
theorem C68_parallel_refuted : ∃ (sa sb p q : P2 ℝ) (r : ℝ), 0 < r ∧ sa ≠ sb ∧ p ≠ q ∧
    DiscMeets (OnSegment p q) sb r ∧ ¬ DiscMeets (OnSegment p q) sa r ∧
    segCapsule Cmp.direct sa sb p q r = .error .divByZero := by
  refine ⟨⟨-3, 0⟩, ⟨2, 0⟩, ⟨0, 0⟩, ⟨4, 0⟩, 1, one_pos, fun h => ?_, fun h => ?_,
    ⟨⟨2, 0⟩, ⟨1 / 2, by norm_num, by norm_num, by ext <;> norm_num⟩, by norm_num [InDisc]⟩, ?_, ?_⟩
  · have := congrArg P2.x h; norm_num at this
  · have := congrArg P2.x h; norm_num at this
  · rintro ⟨P, ⟨t, h0, -, rfl⟩, hd⟩
    unfold InDisc at hd
    norm_num at hd
    linarith [(abs_le.1 hd).2]
  · norm_num [segCapsule, dot, csqrt, cdiv]

/-- C68, disagreement: a segment that starts in the capsule and leaves it is reported not to meet it. -/
theorem C68_inside_refuted : ∃ (sa sb p q : P2 ℝ) (r : ℝ), 0 < r ∧ ¬ Parallel (sb - sa) (q - p) ∧
    DiscMeets (OnSegment p q) sa r ∧ segCapsule Cmp.direct sa sb p q r = .ok none := by
  refine ⟨⟨2, 0⟩, ⟨2, 3⟩, ⟨0, 0⟩, ⟨4, 0⟩, 1, one_pos, ?_,
    ⟨⟨2, 0⟩, ⟨1 / 2, by norm_num, by norm_num, by ext <;> norm_num⟩, by norm_num [InDisc]⟩, ?_⟩
  · rintro (⟨t, h⟩ | ⟨t, h⟩)
    · have hx := congrArg P2.x h
      norm_num at hx
    · have := congrArg P2.y h; norm_num at this
  · have hs : Real.sqrt 2304 = 48 := by
      rw [show (2304 : ℝ) = 48 ^ 2 by norm_num]; exact Real.sqrt_sq (by norm_num)
    norm_num [segCapsule, dot, csqrt, cdiv, hs]

variable {K : Type*} [Field K] [LinearOrder K] [IsStrictOrderedRing K]

/-- C69: a segment that is not parallel to a line given by its normal (of any length). The answer is `true` exactly if
the segment meets the line, and then the point is the only common point, at the parameter that is given. -/
theorem C69_line (a b n : P2 K) (d : K) (h : n.x * (b.x - a.x) + n.y * (b.y - a.y) ≠ 0) :
    ∃ o, segPlane a b n d = .ok o ∧
      (∀ t q, o = some (t, q) → 0 ≤ t ∧ t ≤ 1 ∧ q = a + t • (b - a)) ∧
      ∀ P, (∃ t, o = some (t, P)) ↔ OnSegment a b P ∧ n.x * P.x + n.y * P.y = d := by
  have hd : dot n (b - a) ≠ 0 := by simpa [dot] using h
  unfold segPlane
  dsimp only
  rw [cdiv_ok hd]
  dsimp only
  have key : ∀ t : K, n.x * (a + t • (b - a)).x + n.y * (a + t • (b - a)).y = d ↔ t = (d - dot n a) / dot n (b - a) := by
    intro t
    rw [eq_div_iff hd]
    simp only [dot, P2.add_x, P2.add_y, P2.smul_x, P2.smul_y, P2.sub_x, P2.sub_y]
    constructor <;> intro h <;> linear_combination h
  generalize (d - dot n a) / dot n (b - a) = u at key
  by_cases hu : u ≥ 0 ∧ u ≤ 1
  · rw [if_pos hu]
    refine ⟨_, rfl, ?_, fun P => ⟨?_, ?_⟩⟩
    · rintro t q he
      obtain ⟨rfl, rfl⟩ := Prod.mk.inj (Option.some.inj he)
      exact ⟨hu.1, hu.2, rfl⟩
    · rintro ⟨t, he⟩
      obtain ⟨rfl, rfl⟩ := Prod.mk.inj (Option.some.inj he)
      exact ⟨⟨u, hu.1, hu.2, rfl⟩, (key u).2 rfl⟩
    · rintro ⟨⟨t, h0, h1, rfl⟩, hP⟩
      rw [(key t).1 hP]
      exact ⟨u, rfl⟩
  · rw [if_neg hu]
    refine ⟨_, rfl, by rintro t q ⟨⟩, fun P => ⟨by rintro ⟨t, ⟨⟩⟩, ?_⟩⟩
    rintro ⟨⟨t, h0, h1, rfl⟩, hP⟩
    rw [(key t).1 hP] at h0 h1
    exact absurd ⟨h0, h1⟩ hu

/-- C69 in space. -/
theorem C69_plane (a b n : P3 K) (d : K)
    (h : n.x * (b.x - a.x) + n.y * (b.y - a.y) + n.z * (b.z - a.z) ≠ 0) :
    ∃ o, segPlane3 a b n d = .ok o ∧
      (∀ t q, o = some (t, q) → 0 ≤ t ∧ t ≤ 1 ∧ q = a + t • (b - a)) ∧
      ∀ P, (∃ t, o = some (t, P)) ↔ OnSegment3 a b P ∧ n.x * P.x + n.y * P.y + n.z * P.z = d := by
  have hd : dot3 n (b - a) ≠ 0 := by simpa [dot3] using h
  unfold segPlane3
  dsimp only
  rw [cdiv_ok hd]
  dsimp only
  have key : ∀ t : K, n.x * (a + t • (b - a)).x + n.y * (a + t • (b - a)).y + n.z * (a + t • (b - a)).z = d ↔
      t = (d - dot3 n a) / dot3 n (b - a) := by
    intro t
    rw [eq_div_iff hd]
    simp only [dot3, P3.add_x, P3.add_y, P3.add_z, P3.smul_x, P3.smul_y, P3.smul_z, P3.sub_x, P3.sub_y, P3.sub_z]
    constructor <;> intro h <;> linear_combination h
  generalize (d - dot3 n a) / dot3 n (b - a) = u at key
  by_cases hu : u ≥ 0 ∧ u ≤ 1
  · rw [if_pos hu]
    refine ⟨_, rfl, ?_, fun P => ⟨?_, ?_⟩⟩
    · rintro t q he
      obtain ⟨rfl, rfl⟩ := Prod.mk.inj (Option.some.inj he)
      exact ⟨hu.1, hu.2, rfl⟩
    · rintro ⟨t, he⟩
      obtain ⟨rfl, rfl⟩ := Prod.mk.inj (Option.some.inj he)
      exact ⟨⟨u, hu.1, hu.2, rfl⟩, (key u).2 rfl⟩
    · rintro ⟨⟨t, h0, h1, rfl⟩, hP⟩
      rw [(key t).1 hP]
      exact ⟨u, rfl⟩
  · rw [if_neg hu]
    refine ⟨_, rfl, by rintro t q ⟨⟩, fun P => ⟨by rintro ⟨t, ⟨⟩⟩, ?_⟩⟩
    rintro ⟨⟨t, h0, h1, rfl⟩, hP⟩
    rw [(key t).1 hP] at h0 h1
    exact absurd ⟨h0, h1⟩ hu

/-- The middle of a segment on the line `y = 1` with a normal of length two. -/
example : segPlane (⟨0, 0⟩ : P2 ℚ) ⟨4, 2⟩ ⟨0, 2⟩ 2 = .ok (some (1 / 2, ⟨2, 1⟩)) := by decide +kernel

/-- C69, the parallel case: also for a segment in the line, a division by zero follows; it is a precondition that the
segment is not parallel. -/
theorem C69_parallel (a b n : P2 K) (d : K) (h : n.x * (b.x - a.x) + n.y * (b.y - a.y) = 0) :
    segPlane a b n d = .error .divByZero := by
  have hd : dot n (b - a) = 0 := by simpa [dot] using h
  simp [segPlane, cdiv, hd]

/-- C70: a disc and an oriented box with orthonormal axes intersect according to the test exactly if they have a common
point. -/
theorem C70_obb (c : P2 K) (r : K) (o : Obb K) (h : ValidObb o) :
    sphereObb c r o = true ↔ ∃ P, InObb o P ∧ sqDist P c ≤ r ^ 2 := by
  obtain ⟨⟨-, hmin⟩, hin, heq⟩ := C24_point c o h
  have hs : ∀ P : P2 K, sqDist P c = sqDist c P := fun P => by simp only [sqDist]; ring
  have e : sphereObb c r o = true ↔ sqDist c (pointObbClosest c o) ≤ r ^ 2 := by
    unfold sphereObb
    dsimp only
    rw [decide_eq_true_iff]
    simp only [normSq, dot, sqDist, P2.sub_x, P2.sub_y]
    constructor <;> intro h <;> nlinarith
  rw [e]
  constructor
  · intro hd
    exact ⟨_, hin, by rw [hs]; exact hd⟩
  · rintro ⟨P, hP, hd⟩
    rw [hs] at hd
    rw [heq]
    exact (hmin P hP).trans hd

/-- A disc that meets a turned box. -/
example : ValidObb (⟨⟨0, 0⟩, ⟨3 / 5, 4 / 5⟩, ⟨-4 / 5, 3 / 5⟩, 2, 1⟩ : Obb ℚ) ∧
    sphereObb (⟨3, 4⟩ : P2 ℚ) 3 ⟨⟨0, 0⟩, ⟨3 / 5, 4 / 5⟩, ⟨-4 / 5, 3 / 5⟩, 2, 1⟩ = true ∧
    sphereObb (⟨3, 4⟩ : P2 ℚ) (29 / 10) ⟨⟨0, 0⟩, ⟨3 / 5, 4 / 5⟩, ⟨-4 / 5, 3 / 5⟩, 2, 1⟩ = false := by
  refine ⟨?_, by decide +kernel, by decide +kernel⟩
  norm_num [ValidObb, dot]

end Geometrix
