import Verif.Lemmas.SphereHits
import Verif.Lemmas.MovingSpheres

/-!
# C63: rays, segments and polylines against spheres
-/

set_option linter.unusedSectionVars false

namespace Geometrix

open Spec

/-- A ray with a unit direction against a circle: the answer is the first parameter at which the ray is in the
disc, and the point is the point of the ray there; `false` exactly if the ray misses the disc. -/
theorem C63_ray (p d c : P2 ℝ) (r : ℝ) (hd : dot d d = 1) :
    ∃ o, raySphere Cmp.direct p d c r = .ok o ∧
      IsFirst (0 ≤ ·) (fun t => InDisc c r (p + t • d)) (o.map Prod.fst) ∧
      ∀ t q, o = some (t, q) → q = p + t • d := by
  obtain ⟨o, ho, hf⟩ := raySphereParam_spec (dot (p - c) d) (dot (p - c) (p - c) - r * r)
  have hf' : IsFirst (0 ≤ ·) (fun t => InDisc c r (p + t • d)) o :=
    isFirst_congr hf (fun _ => Iff.rfl) (fun t _ => by rw [inDisc_along, hd, one_mul])
  unfold raySphere
  simp only [ho]
  cases o with
  | none => exact ⟨none, rfl, hf', by simp⟩
  | some t => exact ⟨_, rfl, hf', by rintro t' q' h; simp at h; obtain ⟨rfl, rfl⟩ := h; rfl⟩

/-- The ray along the first axis from `(-3, 0)` meets the unit disc first at the parameter `2`. -/
example : ∃ t q, raySphere Cmp.direct ⟨-3, 0⟩ ⟨1, 0⟩ ⟨0, 0⟩ 1 = .ok (some (t, q)) ∧ t = 2 := by
  obtain ⟨o, ho, hf, hq⟩ := C63_ray ⟨-3, 0⟩ ⟨1, 0⟩ ⟨0, 0⟩ 1 (by simp [dot])
  cases o with
  | none =>
    exfalso
    apply hf 2 (by norm_num)
    simp only [InDisc, P2.add_x, P2.add_y, P2.smul_x, P2.smul_y]; norm_num
  | some x =>
    obtain ⟨t, q⟩ := x
    refine ⟨t, q, ho, ?_⟩
    obtain ⟨h1, h2, h3⟩ := hf
    have h4 := h3 2 (by norm_num) (by simp only [InDisc, P2.add_x, P2.add_y, P2.smul_x, P2.smul_y]; norm_num)
    simp only [InDisc, P2.add_x, P2.add_y, P2.smul_x, P2.smul_y] at h2 h4
    nlinarith

/-- The same in space. -/
theorem C63_ray_space (p d c : P3 ℝ) (r : ℝ) (hd : dot3 d d = 1) :
    ∃ o, raySphere3 Cmp.direct p d c r = .ok o ∧
      IsFirst (0 ≤ ·) (fun t => InBall3 c r (p + t • d)) (o.map Prod.fst) ∧
      ∀ t q, o = some (t, q) → q = p + t • d := by
  obtain ⟨o, ho, hf⟩ := raySphereParam_spec (dot3 (p - c) d) (dot3 (p - c) (p - c) - r * r)
  have hf' : IsFirst (0 ≤ ·) (fun t => InBall3 c r (p + t • d)) o :=
    isFirst_congr hf (fun _ => Iff.rfl) (fun t _ => by
      have e : sqDist3 (p + t • d) c = t ^ 2 * dot3 d d + 2 * dot3 (p - c) d * t + dot3 (p - c) (p - c) := by
        simp only [sqDist3, dot3, P3.add_x, P3.add_y, P3.add_z, P3.smul_x, P3.smul_y, P3.smul_z, P3.sub_x, P3.sub_y,
          P3.sub_z]
        ring
      unfold InBall3
      rw [e, hd]
      constructor <;> intro h <;> linarith)
  unfold raySphere3
  simp only [ho]
  cases o with
  | none => exact ⟨none, rfl, hf', by simp⟩
  | some t => exact ⟨_, rfl, hf', by rintro t' q' h; simp at h; obtain ⟨rfl, rfl⟩ := h; rfl⟩

/-- A direction not along an axis. -/
example : dot3 (⟨2 / 3, 1 / 3, -2 / 3⟩ : P3 ℝ) ⟨2 / 3, 1 / 3, -2 / 3⟩ = 1 := by simp only [dot3]; norm_num

/-- A segment with a length against a circle: the answer is the first of the parameters from `0` to `1` at which
the segment is in the disc, with the point of the segment there; `false` exactly if the segment misses the
disc. -/
theorem C63_segment (a b c : P2 ℝ) (r : ℝ) (h : a ≠ b) :
    ∃ o, segSphere Cmp.direct a b c r = .ok o ∧
      IsFirst (fun t => 0 ≤ t ∧ t ≤ 1) (fun t => InDisc c r (a + t • (b - a))) (o.map Prod.fst) ∧
      ∀ t q, o = some (t, q) → q = some (a + t • (b - a)) := by
  have hpos := dot_diff_pos h
  have hL : 0 < Real.sqrt (dot (b - a) (b - a)) := Real.sqrt_pos.2 hpos
  have hLL : Real.sqrt (dot (b - a) (b - a)) ^ 2 = dot (b - a) (b - a) := Real.sq_sqrt hpos.le
  obtain ⟨o, ho, he⟩ := segSphereLength_eq a (b - a) c r _ hL
  obtain ⟨o', ho', hf⟩ := raySphereParam_spec (dot (a - c) (b - a) / Real.sqrt (dot (b - a) (b - a)))
    (dot (a - c) (a - c) - r * r)
  rw [ho] at ho'
  cases ho'
  have hu := isFirst_scale (B := fun t => 0 ≤ t ∧ t ≤ 1) (T := fun t => InDisc c r (a + t • (b - a))) hL
    (isFirst_upto (L := Real.sqrt (dot (b - a) (b - a))) hf)
    (fun t => by
      constructor
      · rintro ⟨h0, h1⟩; exact ⟨mul_nonneg hL.le h0, by nlinarith⟩
      · rintro ⟨h0, h1⟩; exact ⟨by by_contra hn; push Not at hn; nlinarith, by by_contra hn; push Not at hn; nlinarith⟩)
    (fun t => by
      rw [inDisc_along]
      clear ho he hf
      generalize Real.sqrt (dot (b - a) (b - a)) = L at *
      rw [← hLL]
      field_simp)
  refine ⟨_, he, ?_, ?_⟩
  · rw [Option.map_map]; exact hu
  · intro t q hq
    rw [Option.map_eq_some_iff] at hq
    obtain ⟨s, -, hs⟩ := hq
    simp only [Prod.mk.injEq] at hs
    obtain ⟨rfl, rfl⟩ := hs
    rfl

/-- The hypothesis: a segment that enters the disc half way. -/
example : (⟨-2, 0⟩ : P2 ℝ) ≠ ⟨0, 0⟩ ∧ InDisc (⟨0, 0⟩ : P2 ℝ) 1 (⟨-2, 0⟩ + (1 / 2 : ℝ) • (⟨0, 0⟩ - ⟨-2, 0⟩)) := by
  refine ⟨fun h => ?_, ?_⟩
  · have := congrArg P2.x h; norm_num at this
  · simp only [InDisc, P2.add_x, P2.add_y, P2.smul_x, P2.smul_y, P2.sub_x, P2.sub_y]; norm_num

/-- A segment of one point: the answer is right, but the point `q` is not written. -/
theorem C63_segment_point (a c : P2 ℝ) (r : ℝ) :
    ∃ o, segSphere Cmp.direct a a c r = .ok o ∧ (o = some (0, none) ∨ o = none) ∧
      (o ≠ none ↔ InDisc c r a) := by
  have e0 : dot (a - a) (a - a) = 0 := by simp [dot]
  have e1 : InDisc c r a ↔ dot (a - c) (a - c) - r * r ≤ 0 := by
    unfold InDisc
    simp only [dot, P2.sub_x, P2.sub_y]
    constructor <;> intro h <;> linarith
  unfold segSphere segSphereLength
  simp only [e0, Real.sqrt_zero, direct_equals, direct_le, decide_true, if_true]
  rw [e1]
  by_cases h : dot (a - c) (a - c) - r * r ≤ 0 <;> simp [h]

/-- A point of the unit disc. -/
example : InDisc (⟨0, 0⟩ : P2 ℝ) 1 ⟨1 / 2, 0⟩ := by simp only [InDisc]; norm_num

/-- The version with two points of intersection: `false` exactly if the line misses the circle; otherwise the two
parameters are exactly those at which the line is on the circle, in order, the points are the points there, and
the flags say which of them are on the segment. -/
theorem C63_roots (a b c : P2 ℝ) (r : ℝ) (h : a ≠ b) :
    ∃ o, segSphereRoots a b c r = .ok o ∧
      (o = none ↔ ∀ t : ℝ, ¬ OnCircle c r (a + t • (b - a))) ∧
      ∀ x, o = some x → x.t0 ≤ x.t1 ∧ (∀ t, OnCircle c r (a + t • (b - a)) ↔ t = x.t0 ∨ t = x.t1) ∧
        x.q0 = a + x.t0 • (b - a) ∧ x.q1 = a + x.t1 • (b - a) ∧
        (x.hit0 = true ↔ OnSegment a b x.q0) ∧ (x.hit1 = true ↔ OnSegment a b x.q1) := by
  obtain ⟨o, ho, hn, hs⟩ := segSphereRoots_spec a b c r h
  refine ⟨o, ho, hn, fun x hx => ?_⟩
  obtain ⟨h1, h2, h3, h4, h5, h6⟩ := hs x hx
  have hseg : ∀ t : ℝ, OnSegment a b (a + t • (b - a)) ↔ 0 ≤ t ∧ t ≤ 1 := by
    intro t
    constructor
    · rintro ⟨s, hs0, hs1, he⟩
      have hx := congrArg P2.x he
      have hy := congrArg P2.y he
      simp only [P2.add_x, P2.add_y, P2.smul_x, P2.smul_y, P2.sub_x, P2.sub_y] at hx hy
      have : (t - s) * dot (b - a) (b - a) = 0 := by
        simp only [dot, P2.sub_x, P2.sub_y]
        linear_combination (b.x - a.x) * hx + (b.y - a.y) * hy
      rcases mul_eq_zero.1 this with h0 | h0
      · rw [sub_eq_zero] at h0; subst h0; exact ⟨hs0, hs1⟩
      · exact absurd h0 (dot_diff_pos h).ne'
    · rintro ⟨h0, h1⟩; exact ⟨t, h0, h1, rfl⟩
  refine ⟨h1, h2, h3, h4, ?_, ?_⟩
  · rw [h5, h3, hseg]
  · rw [h6, h4, hseg]

example : (⟨-2, 0⟩ : P2 ℝ) ≠ ⟨2, 1⟩ := fun h => by have := congrArg P2.x h; norm_num at this

/-- Called for a segment of one point that is not farther from the centre than the radius, the version with two
points divides by zero. The version is made for segments with a length. -/
theorem C63_roots_point : ∃ (a c : P2 ℝ) (r : ℝ), OnCircle c r a ∧
    segSphereRoots a a c r = .error .divByZero := by
  refine ⟨⟨1, 0⟩, ⟨0, 0⟩, 1, by simp [OnCircle], ?_⟩
  unfold segSphereRoots
  simp [dot, csqrt, cdiv]

/-- Spheres and polylines: the visitor is called for exactly the edges with a point on the circle, in order, until
it asks to stop, each time with the numbers of the edge and its two points of intersection; the answer says
whether there is such an edge. -/
theorem C63_polyline {σ : Type*} (c : P2 ℝ) (r : ℝ) (poly : List (P2 ℝ)) (hp : ProperEdges poly)
    (visit : σ → SphereCall → Bool × σ) (s : σ) : ∃ calls : List SphereCall,
      (∀ k, (∃ x ∈ calls, x.i = k) ↔ EdgeOnCircle c r poly k) ∧
      (∀ x ∈ calls, ∃ A B, x.j = x.i + 1 ∧ IsEdge poly x.i A B ∧ segSphereRoots A B c r = .ok (some x.roots)) ∧
      calls.Pairwise (fun x y => x.i < y.i) ∧
      spherePolyline c r poly visit s = .ok (!calls.isEmpty, callUntil visit s calls) := by
  obtain ⟨calls, h1, h2, h3, h4⟩ := spherePolylineLoop_spec c r visit 0 poly hp
  refine ⟨calls, by simpa using h1, ?_, h3, by simpa [spherePolyline] using h4 false s⟩
  intro x hx
  obtain ⟨k, A, B, e1, e2, e3, e4⟩ := h2 x hx
  simp only [Nat.zero_add] at e1 e2
  subst e1
  exact ⟨A, B, e2, e3, e4⟩

/-- A polyline whose first edge meets the unit circle and whose second does not. -/
example : let poly : List (P2 ℝ) := [⟨0, 0⟩, ⟨2, 0⟩, ⟨2, 2⟩]
    ProperEdges poly ∧ EdgeOnCircle ⟨0, 0⟩ 1 poly 0 ∧ ¬ EdgeOnCircle ⟨0, 0⟩ 1 poly 1 := by
  refine ⟨?_, ?_, ?_⟩
  · rintro (_ | _ | _ | i) A B ⟨h1, h2⟩ <;> simp at h1 h2
    · subst h1; subst h2; intro h; have := congrArg P2.x h; norm_num at this
    · subst h1; subst h2; intro h; have := congrArg P2.y h; norm_num at this
  · refine ⟨⟨0, 0⟩, ⟨2, 0⟩, ⟨1, 0⟩, ⟨rfl, rfl⟩, ⟨1 / 2, by norm_num, by norm_num, ?_⟩, by simp [OnCircle]⟩
    apply P2.ext <;> simp
  · rintro ⟨A, B, P, ⟨h1, h2⟩, ⟨t, h0, h1', rfl⟩, hP⟩
    simp at h1 h2
    subst h1; subst h2
    simp only [OnCircle, P2.add_x, P2.add_y, P2.smul_x, P2.smul_y, P2.sub_x, P2.sub_y] at hP
    nlinarith [sq_nonneg t]

end Geometrix
