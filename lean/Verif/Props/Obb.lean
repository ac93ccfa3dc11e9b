import Verif.Lemmas.Obb

/-!
# C15, C24: oriented boxes
-/

set_option linter.unusedSectionVars false

namespace Geometrix

open Spec

variable {K : Type*} [Field K] [LinearOrder K] [IsStrictOrderedRing K]

/-- C15: two boxes with orthonormal axes intersect according to the test exactly when they share a
point. -/
theorem C15_intersection (o1 o2 : Obb K) (h1 : ValidObb o1) (h2 : ValidObb o2) :
    obbObb Cmp.direct o1 o2 = true ↔ ∃ P, InObb o1 P ∧ InObb o2 P := by
  obtain ⟨a1, a2, a3, a4, a5⟩ := h1
  obtain ⟨b1, b2, b3, b4, b5⟩ := h2
  have hswap : |dot o1.u o2.v| = |dot o1.v o2.u| := by
    obtain ⟨δ, e1, e2, e3⟩ := frame a1 a2 a3
    obtain ⟨ε, f1, f2, f3⟩ := frame b1 b2 b3
    have hd : |δ| = 1 := by
      have : |δ| * |δ| = 1 := by rw [abs_mul_abs_self, e1]
      nlinarith [abs_nonneg δ, this]
    have he : |ε| = 1 := by
      have : |ε| * |ε| = 1 := by rw [abs_mul_abs_self, f1]
      nlinarith [abs_nonneg ε, this]
    have g1 : dot o1.u o2.v = ε * (o1.u.y * o2.u.x - o1.u.x * o2.u.y) := by
      simp only [dot, f2, f3]; ring
    have g2 : dot o1.v o2.u = -(δ * (o1.u.y * o2.u.x - o1.u.x * o2.u.y)) := by
      simp only [dot, e2, e3]; ring
    rw [g1, g2, abs_neg, abs_mul, abs_mul, hd, he]
  have hdc : ∀ a b : P2 K, dot a b = dot b a := fun a b => by simp only [dot]; ring
  have htest : obbObb Cmp.direct o1 o2 = true ↔
      |dot (o2.center - o1.center) o1.u| ≤
        o1.hu + (o2.hu * |dot o1.u o2.u| + o2.hv * |dot o1.u o2.v|) ∧
      |dot (o2.center - o1.center) o1.v| ≤
        o1.hv + (o2.hu * |dot o1.v o2.u| + o2.hv * |dot o1.v o2.v|) ∧
      |dot (o2.center - o1.center) o2.u| ≤
        o2.hu + (o1.hu * |dot o2.u o1.u| + o1.hv * |dot o2.u o1.v|) ∧
      |dot (o2.center - o1.center) o2.v| ≤
        o2.hv + (o1.hu * |dot o2.v o1.u| + o1.hv * |dot o2.v o1.v|) := by
    unfold obbObb
    rw [hdc o2.u o1.u, hdc o2.u o1.v, hdc o2.v o1.u, hdc o2.v o1.v, hswap]
    simp only [direct_gt]
    grind
  rw [htest]
  constructor
  · rintro ⟨t1, t2, t3, t4⟩
    have hd : ∀ (a b n : P2 K), dot (a - b) n = dot a n - dot b n := fun a b n => by
      simp only [dot, P2.sub_x, P2.sub_y]; ring
    obtain ⟨P, hP⟩ := four_strips ![o1.u, o1.v, o2.u, o2.v]
      ![dot o1.center o1.u, dot o1.center o1.v, dot o2.center o2.u, dot o2.center o2.v]
      ![o1.hu, o1.hv, o2.hu, o2.hv] (by
        intro i
        rw [hd] at t1 t2 t3 t4
        rw [abs_sub_comm] at t3 t4
        match i with
        | 0 =>
          obtain ⟨P, hP, hs⟩ := obb_strip b4 b5 o1.v (dot o1.center o1.v) o1.hv a5 t2
          obtain ⟨k1, k2⟩ := (inObb_iff ⟨b1, b2, b3, b4, b5⟩ P).mp hP
          rw [hd] at k1 k2
          refine ⟨P, fun j hj => ?_⟩
          match j with
          | 0 => exact absurd rfl hj
          | 1 => exact hs
          | 2 => exact k1
          | 3 => exact k2
        | 1 =>
          obtain ⟨P, hP, hs⟩ := obb_strip b4 b5 o1.u (dot o1.center o1.u) o1.hu a4 t1
          obtain ⟨k1, k2⟩ := (inObb_iff ⟨b1, b2, b3, b4, b5⟩ P).mp hP
          rw [hd] at k1 k2
          refine ⟨P, fun j hj => ?_⟩
          match j with
          | 0 => exact hs
          | 1 => exact absurd rfl hj
          | 2 => exact k1
          | 3 => exact k2
        | 2 =>
          obtain ⟨P, hP, hs⟩ := obb_strip a4 a5 o2.v (dot o2.center o2.v) o2.hv b5 t4
          obtain ⟨k1, k2⟩ := (inObb_iff ⟨a1, a2, a3, a4, a5⟩ P).mp hP
          rw [hd] at k1 k2
          refine ⟨P, fun j hj => ?_⟩
          match j with
          | 0 => exact k1
          | 1 => exact k2
          | 2 => exact absurd rfl hj
          | 3 => exact hs
        | 3 =>
          obtain ⟨P, hP, hs⟩ := obb_strip a4 a5 o2.u (dot o2.center o2.u) o2.hu b4 t3
          obtain ⟨k1, k2⟩ := (inObb_iff ⟨a1, a2, a3, a4, a5⟩ P).mp hP
          rw [hd] at k1 k2
          refine ⟨P, fun j hj => ?_⟩
          match j with
          | 0 => exact k1
          | 1 => exact k2
          | 2 => exact hs
          | 3 => exact absurd rfl hj)
    refine ⟨P, (inObb_iff ⟨a1, a2, a3, a4, a5⟩ P).mpr ?_, (inObb_iff ⟨b1, b2, b3, b4, b5⟩ P).mpr ?_⟩
    · rw [hd, hd]; exact ⟨hP 0, hP 1⟩
    · rw [hd, hd]; exact ⟨hP 2, hP 3⟩
  · rintro ⟨P, hP1, hP2⟩
    have key : ∀ (o o' : Obb K), InObb o P → InObb o' P → ∀ n : P2 K, ∀ w : K,
        |dot (P - o.center) n| ≤ w →
        |dot (o'.center - o.center) n| ≤ w + (o'.hu * |dot n o'.u| + o'.hv * |dot n o'.v|) := by
      rintro o o' - ⟨s, t, hs, ht, rfl⟩ n w hw
      have e : dot (o'.center - o.center) n =
          dot (o'.center + s • o'.u + t • o'.v - o.center) n +
            (-(s * dot n o'.u) + -(t * dot n o'.v)) := by
        simp only [dot, P2.add_x, P2.add_y, P2.sub_x, P2.sub_y, P2.smul_x, P2.smul_y]; ring
      rw [e]
      refine (abs_add_le _ _).trans (add_le_add hw ((abs_add_le _ _).trans (add_le_add ?_ ?_)))
      · rw [abs_neg, abs_mul]; exact mul_le_mul_of_nonneg_right hs (abs_nonneg _)
      · rw [abs_neg, abs_mul]; exact mul_le_mul_of_nonneg_right ht (abs_nonneg _)
    obtain ⟨p1, p2⟩ := (inObb_iff ⟨a1, a2, a3, a4, a5⟩ P).mp hP1
    obtain ⟨q1, q2⟩ := (inObb_iff ⟨b1, b2, b3, b4, b5⟩ P).mp hP2
    have hneg : ∀ n : P2 K, |dot (o2.center - o1.center) n| = |dot (o1.center - o2.center) n| := by
      intro n
      rw [← abs_neg]; congr 1; simp only [dot, P2.sub_x, P2.sub_y]; ring
    refine ⟨key o1 o2 hP1 hP2 _ _ p1, key o1 o2 hP1 hP2 _ _ p2, ?_, ?_⟩
    · rw [hneg]; exact key o2 o1 hP2 hP1 _ _ q1
    · rw [hneg]; exact key o2 o1 hP2 hP1 _ _ q2

/-- A turned square that touches an upright one in its corner. -/
example : ValidObb (⟨⟨0, 0⟩, ⟨1, 0⟩, ⟨0, 1⟩, 1, 1⟩ : Obb ℚ) ∧
    ValidObb (⟨⟨12 / 5, 0⟩, ⟨3 / 5, 4 / 5⟩, ⟨-4 / 5, 3 / 5⟩, 1, 1⟩ : Obb ℚ) ∧
    obbObb Cmp.direct (⟨⟨0, 0⟩, ⟨1, 0⟩, ⟨0, 1⟩, 1, 1⟩ : Obb ℚ)
      ⟨⟨12 / 5, 0⟩, ⟨3 / 5, 4 / 5⟩, ⟨-4 / 5, 3 / 5⟩, 1, 1⟩ = true ∧
    obbObb Cmp.direct (⟨⟨0, 0⟩, ⟨1, 0⟩, ⟨0, 1⟩, 1, 1⟩ : Obb ℚ)
      ⟨⟨5 / 2, 0⟩, ⟨3 / 5, 4 / 5⟩, ⟨-4 / 5, 3 / 5⟩, 1, 1⟩ = false := by
  unfold ValidObb; decide +kernel

/-- C24: the squared distance of a point is the minimum over the box, and the closest point is a
point of the box that attains it. -/
theorem C24_point (p : P2 K) (o : Obb K) (h : ValidObb o) :
    IsMinOver (InObb o) (sqDist p) (pointObbDistSq p o) ∧
      InObb o (pointObbClosest p o) ∧ sqDist p (pointObbClosest p o) = pointObbDistSq p o := by
  have h' := h
  obtain ⟨h1, h2, h3, h4, h5⟩ := h'
  have hin : InObb o (pointObbClosest p o) := ⟨_, _, obbClamp_mem _ _ h4, obbClamp_mem _ _ h5, rfl⟩
  have hd : sqDist p (pointObbClosest p o) = pointObbDistSq p o := by
    unfold pointObbClosest pointObbDistSq
    simp only
    rw [sqDist_obb h, obbExcess_eq _ _ h4, obbExcess_eq _ _ h5]
    ring
  refine ⟨⟨⟨_, hin, hd⟩, ?_⟩, hin, hd⟩
  rintro Q ⟨s, t, hs, ht, rfl⟩
  rw [← hd]
  unfold pointObbClosest
  simp only
  rw [sqDist_obb h, sqDist_obb h]
  exact add_le_add (obbClamp_best _ _ _ h4 hs) (obbClamp_best _ _ _ h5 ht)

example : ValidObb (⟨⟨0, 0⟩, ⟨3 / 5, 4 / 5⟩, ⟨-4 / 5, 3 / 5⟩, 1, 2⟩ : Obb ℚ) ∧
    pointObbDistSq (⟨3, 4⟩ : P2 ℚ) ⟨⟨0, 0⟩, ⟨3 / 5, 4 / 5⟩, ⟨-4 / 5, 3 / 5⟩, 1, 2⟩ = 16 ∧
    pointObbClosest (⟨3, 4⟩ : P2 ℚ) ⟨⟨0, 0⟩, ⟨3 / 5, 4 / 5⟩, ⟨-4 / 5, 3 / 5⟩, 1, 2⟩ =
      ⟨3 / 5, 4 / 5⟩ := by
  unfold ValidObb; decide +kernel

/-- C24: `segment_obb_distance_sqrd` is the minimum over three edges of the box and the diagonal from
corner 3 to corner 1, the latter in place of the fourth edge. Missing: the fourth edge and the
inside, see `C24_segment_edge_refuted` and `C24_segment_inside_refuted`. -/
theorem C24_segment_partial (s : Seg K) (o : Obb K) :
    ∃ d c0 c1 c2 c3, segmentObbDistSq Cmp.direct s o = .ok d ∧ o.corner 0 = .ok c0 ∧
      o.corner 1 = .ok c1 ∧ o.corner 2 = .ok c2 ∧ o.corner 3 = .ok c3 ∧
      IsMinDist (OnSegment s.s s.e)
        (fun Q => OnSegment c0 c1 Q ∨ OnSegment c1 c2 Q ∨ OnSegment c2 c3 Q ∨ OnSegment c3 c1 Q)
        d := by
  have hmin : ∀ (T1 T2 : P2 K → Prop) (d1 d2 : K), IsMinDist (OnSegment s.s s.e) T1 d1 →
      IsMinDist (OnSegment s.s s.e) T2 d2 →
      IsMinDist (OnSegment s.s s.e) (fun Q => T1 Q ∨ T2 Q) (minCopy d1 d2) := by
    rintro T1 T2 d1 d2 ⟨⟨PQ, ⟨hP, hQ⟩, hd⟩, hm⟩ ⟨⟨PQ', ⟨hP', hQ'⟩, hd'⟩, hm'⟩
    have hle : minCopy d1 d2 ≤ d1 ∧ minCopy d1 d2 ≤ d2 := by unfold minCopy; grind
    refine ⟨?_, ?_⟩
    · have : minCopy d1 d2 = d1 ∨ minCopy d1 d2 = d2 := by unfold minCopy; grind
      rcases this with h | h
      · exact ⟨PQ, ⟨hP, Or.inl hQ⟩, by rw [h]; exact hd⟩
      · exact ⟨PQ', ⟨hP', Or.inr hQ'⟩, by rw [h]; exact hd'⟩
    · rintro PQ ⟨hP, hQ | hQ⟩
      · exact hle.1.trans (hm PQ ⟨hP, hQ⟩)
      · exact hle.2.trans (hm' PQ ⟨hP, hQ⟩)
  obtain ⟨d0, e0, m0⟩ := segSegDistSq_spec s.s s.e (o.center - o.hu • o.u - o.hv • o.v)
    (o.center + o.hu • o.u - o.hv • o.v)
  obtain ⟨d1, e1, m1⟩ := segSegDistSq_spec s.s s.e (o.center + o.hu • o.u - o.hv • o.v)
    (o.center + o.hu • o.u + o.hv • o.v)
  obtain ⟨d2, e2, m2⟩ := segSegDistSq_spec s.s s.e (o.center + o.hu • o.u + o.hv • o.v)
    (o.center - o.hu • o.u + o.hv • o.v)
  obtain ⟨d3, e3, m3⟩ := segSegDistSq_spec s.s s.e (o.center - o.hu • o.u + o.hv • o.v)
    (o.center + o.hu • o.u - o.hv • o.v)
  refine ⟨minCopy (minCopy (minCopy d0 d1) d2) d3, _, _, _, _, ?_, rfl, rfl, rfl, rfl, ?_⟩
  · simp only [segmentObbDistSq, Obb.corner, e0, e1, e2, e3, bind, Except.bind, pure, Except.pure]
  · have := hmin _ _ _ _ (hmin _ _ _ _ (hmin _ _ _ _ m0 m1) m2) m3
    simpa only [or_assoc] using this

/-- C24 is false for a segment that touches the fourth edge: the result is positive. -/
theorem C24_segment_edge_refuted :
    InObb (⟨⟨0, 0⟩, ⟨1, 0⟩, ⟨0, 1⟩, 4, 4⟩ : Obb ℚ) ⟨-4, 0⟩ ∧
      (match segmentObbDistSq Cmp.direct (⟨⟨-5, 0⟩, ⟨-4, 0⟩⟩ : Seg ℚ)
          ⟨⟨0, 0⟩, ⟨1, 0⟩, ⟨0, 1⟩, 4, 4⟩ with
        | .ok d => d == 8
        | _ => false) = true := by
  refine ⟨⟨-4, 0, by decide +kernel, by decide +kernel, by decide +kernel⟩, by decide +kernel⟩

/-- C24 is false for a segment inside the box, whose distance to the box is zero. -/
theorem C24_segment_inside_refuted :
    InObb (⟨⟨0, 0⟩, ⟨1, 0⟩, ⟨0, 1⟩, 4, 4⟩ : Obb ℚ) ⟨2, 1⟩ ∧
      (match segmentObbDistSq Cmp.direct (⟨⟨2, 1⟩, ⟨2, 0⟩⟩ : Seg ℚ)
          ⟨⟨0, 0⟩, ⟨1, 0⟩, ⟨0, 1⟩, 4, 4⟩ with
        | .ok d => d == 2
        | _ => false) = true := by
  refine ⟨⟨2, 1, by decide +kernel, by decide +kernel, by decide +kernel⟩, by decide +kernel⟩

/-- C24: the corners are the four points at the half widths, in order around the box. -/
theorem C24_corner (o : Obb K) (h : ValidObb o) (i : Nat) :
    (i < 4 → ∃ P s t, o.corner i = .ok P ∧ InObb o P ∧ |s| = o.hu ∧ |t| = o.hv ∧
      P = o.center + s • o.u + t • o.v) ∧ (4 ≤ i → o.corner i = .error .assertFailed) := by
  obtain ⟨-, -, -, h4, h5⟩ := h
  have key : ∀ s t : K, |s| = o.hu → |t| = o.hv → InObb o (o.center + s • o.u + t • o.v) :=
    fun s t hs ht => ⟨s, t, hs.le, ht.le, rfl⟩
  constructor
  · intro hi
    have hu : |o.hu| = o.hu := abs_of_nonneg h4
    have hv : |o.hv| = o.hv := abs_of_nonneg h5
    have e0 : o.center - o.hu • o.u - o.hv • o.v =
        o.center + (-o.hu) • o.u + (-o.hv) • o.v := by ext <;> simp <;> ring
    have e1 : o.center + o.hu • o.u - o.hv • o.v =
        o.center + o.hu • o.u + (-o.hv) • o.v := by ext <;> simp <;> ring
    have e3 : o.center - o.hu • o.u + o.hv • o.v =
        o.center + (-o.hu) • o.u + o.hv • o.v := by ext <;> simp <;> ring
    match i, hi with
    | 0, _ => exact ⟨_, -o.hu, -o.hv, rfl, e0 ▸ key _ _ (by simpa using hu) (by simpa using hv),
        by simpa using hu, by simpa using hv, e0⟩
    | 1, _ => exact ⟨_, o.hu, -o.hv, rfl, e1 ▸ key _ _ hu (by simpa using hv), hu,
        by simpa using hv, e1⟩
    | 2, _ => exact ⟨_, o.hu, o.hv, rfl, key _ _ hu hv, hu, hv, rfl⟩
    | 3, _ => exact ⟨_, -o.hu, o.hv, rfl, e3 ▸ key _ _ (by simpa using hu) hv,
        by simpa using hu, hv, e3⟩
  · intro hi
    match i, hi with
    | n + 4, _ => rfl

end Geometrix
