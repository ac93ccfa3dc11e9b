import Verif.Lemmas.Box
import Mathlib.Tactic.IntervalCases

/-!
# C14: box tests are set tests
-/

set_option linter.unusedSectionVars false

namespace Geometrix

open Spec

variable {K : Type*} [Field K] [LinearOrder K] [IsStrictOrderedRing K]

/-- C14: the point test is membership of the closed box. -/
theorem C14_point (b : Box K) (p : P2 K) :
    b.intersectsPoint Cmp.direct p = true ↔ InBox b p := intersectsPoint_iff b p

/-- C14: the box test is true exactly when the closed boxes share a point. -/
theorem C14_boxes (a b : Box K) (ha : ValidBox a) (hb : ValidBox b) :
    a.intersectsBox Cmp.direct b = true ↔ ∃ P, InBox a P ∧ InBox b P := by
  obtain ⟨ha1, ha2⟩ := ha
  obtain ⟨hb1, hb2⟩ := hb
  have h : a.intersectsBox Cmp.direct b = true ↔
      b.lo.y ≤ a.hi.y ∧ a.lo.y ≤ b.hi.y ∧ b.lo.x ≤ a.hi.x ∧ a.lo.x ≤ b.hi.x := by
    unfold Box.intersectsBox
    simp only [Bool.or_eq_true, direct_lt, direct_gt]
    split_ifs with h1
    · simp only [false_iff]
      rintro ⟨h2, h3, _⟩; rcases h1 with h | h <;> linarith
    · push Not at h1
      simp [h1]
  rw [h]
  constructor
  · rintro ⟨h1, h2, h3, h4⟩
    exact ⟨⟨max a.lo.x b.lo.x, max a.lo.y b.lo.y⟩,
      ⟨le_max_left _ _, max_le ha1 h3, le_max_left _ _, max_le ha2 h1⟩,
      ⟨le_max_right _ _, max_le h4 hb1, le_max_right _ _, max_le h2 hb2⟩⟩
  · rintro ⟨P, ⟨a1, a2, a3, a4⟩, b1, b2, b3, b4⟩
    exact ⟨b3.trans a4, a3.trans b4, b1.trans a2, a1.trans b2⟩

example : ValidBox (⟨⟨0, 0⟩, ⟨2, 3⟩⟩ : Box ℚ) ∧ ValidBox (⟨⟨1, 1⟩, ⟨4, 5⟩⟩ : Box ℚ) := by
  constructor <;> constructor <;> norm_num

/-- C14: `contains` is inclusion of closed boxes. -/
theorem C14_contains (a b : Box K) (hb : ValidBox b) :
    a.contains Cmp.direct b = true ↔ ∀ P, InBox b P → InBox a P := by
  obtain ⟨hb1, hb2⟩ := hb
  simp only [Box.contains, Bool.and_eq_true, intersectsPoint_iff]
  constructor
  · rintro ⟨⟨h1, h2, h3, h4⟩, k1, k2, k3, k4⟩ P ⟨p1, p2, p3, p4⟩
    exact ⟨k1.trans p1, p2.trans h2, k3.trans p3, p4.trans h4⟩
  · intro h
    exact ⟨h _ ⟨hb1, le_rfl, hb2, le_rfl⟩, h _ ⟨le_rfl, hb1, le_rfl, hb2⟩⟩

example : (⟨⟨0, 0⟩, ⟨2, 3⟩⟩ : Box ℚ).contains Cmp.direct ⟨⟨0, 1⟩, ⟨1, 3⟩⟩ = true ∧
    (⟨⟨0, 0⟩, ⟨2, 3⟩⟩ : Box ℚ).contains Cmp.direct ⟨⟨0, 1⟩, ⟨3, 3⟩⟩ = false := by decide +kernel

/-- C14: `expand` yields the least box that contains both boxes. -/
theorem C14_expand (a b : Box K) (ha : ValidBox a) (hb : ValidBox b) :
    ValidBox (a.expand b) ∧ IsLeastBox (fun P => InBox a P ∨ InBox b P) (a.expand b) := by
  obtain ⟨ha1, ha2⟩ := ha
  obtain ⟨hb1, hb2⟩ := hb
  refine ⟨?_, ?_, ?_⟩
  · unfold Box.expand ValidBox; constructor <;> grind
  · rintro P (⟨h1, h2, h3, h4⟩ | ⟨h1, h2, h3, h4⟩) <;>
    · unfold Box.expand InBox; refine ⟨?_, ?_, ?_, ?_⟩ <;> grind
  · intro c hc P hP
    have a1 := hc a.lo (Or.inl ⟨le_rfl, ha1, le_rfl, ha2⟩)
    have a2 := hc a.hi (Or.inl ⟨ha1, le_rfl, ha2, le_rfl⟩)
    have b1 := hc b.lo (Or.inr ⟨le_rfl, hb1, le_rfl, hb2⟩)
    have b2 := hc b.hi (Or.inr ⟨hb1, le_rfl, hb2, le_rfl⟩)
    unfold Box.expand InBox at *
    simp only at *
    refine ⟨?_, ?_, ?_, ?_⟩ <;> grind

example : (⟨⟨0, 0⟩, ⟨2, 3⟩⟩ : Box ℚ).expand ⟨⟨-1, 1⟩, ⟨1, 5⟩⟩ = ⟨⟨-1, 0⟩, ⟨2, 5⟩⟩ := by
  decide +kernel

/-- C14: the bounds of a non empty point sequence are its least box. -/
theorem C14_bounds (pts : List (P2 K)) (h : pts ≠ []) :
    ∃ b, getBounds Cmp.direct pts = some b ∧ ValidBox b ∧ IsLeastBox (· ∈ pts) b := by
  obtain ⟨p, ps, rfl⟩ := List.exists_cons_of_ne_nil h
  obtain ⟨r, hr, ⟨h1, h2, h3, h4⟩, hm, k1, k2, k3, k4⟩ := boundsFold ps ⟨p, p⟩
  simp only at *
  refine ⟨r, by rw [← hr]; rfl, ⟨h1.trans h3, h2.trans h4⟩, ?_, ?_⟩
  · intro P hP
    rcases List.mem_cons.mp hP with rfl | hP
    · exact ⟨h1, h3, h2, h4⟩
    · exact hm P hP
  · intro c hc P ⟨p1, p2, p3, p4⟩
    have hp := hc p (List.mem_cons_self ..)
    have hps : ∀ Q ∈ ps, InBox c Q := fun Q hQ => hc Q (List.mem_cons_of_mem _ hQ)
    exact ⟨(k1 _ hp.1 fun Q hQ => (hps Q hQ).1).trans p1,
      p2.trans (k3 _ hp.2.1 fun Q hQ => (hps Q hQ).2.1),
      (k2 _ hp.2.2.1 fun Q hQ => (hps Q hQ).2.2.1).trans p3,
      p4.trans (k4 _ hp.2.2.2 fun Q hQ => (hps Q hQ).2.2.2)⟩

example : getBounds Cmp.direct [(⟨1, 5⟩ : P2 ℚ), ⟨-2, 7⟩, ⟨0, 0⟩] = some ⟨⟨-2, 0⟩, ⟨1, 7⟩⟩ := by
  decide +kernel

/-- C14: the box of a segment is the least box that contains it. -/
theorem C14_segment_bounds (s : Seg K) :
    ValidBox (makeAabbSegment Cmp.direct s) ∧
      IsLeastBox (OnSegment s.s s.e) (makeAabbSegment Cmp.direct s) := by
  have hlo : ∀ a b : K, min a b = if (b < if a < a then a else a) then b else
      (if a < a then a else a) := by intro a b; grind
  have hhi : ∀ a b : K, max a b = if (b > if a > a then a else a) then b else
      (if a > a then a else a) := by intro a b; grind
  have hbox : makeAabbSegment Cmp.direct s =
      ⟨⟨min s.s.x s.e.x, min s.s.y s.e.y⟩, ⟨max s.s.x s.e.x, max s.s.y s.e.y⟩⟩ := by
    unfold makeAabbSegment
    simp only [direct_lt, direct_gt, ← hlo, ← hhi]
  rw [hbox]
  refine ⟨⟨min_le_max, min_le_max⟩, ?_, ?_⟩
  · rintro P ⟨t, h0, h1, rfl⟩
    have key : ∀ a b : K, min a b ≤ a + t * (b - a) ∧ a + t * (b - a) ≤ max a b := by
      intro a b
      rcases le_total a b with h | h
      · rw [min_eq_left h, max_eq_right h]; constructor <;> nlinarith
      · rw [min_eq_right h, max_eq_left h]; constructor <;> nlinarith
    exact ⟨(key _ _).1, (key _ _).2, (key _ _).1, (key _ _).2⟩
  · rintro c hc P ⟨p1, p2, p3, p4⟩
    obtain ⟨s1, s2, s3, s4⟩ := hc s.s ⟨0, le_rfl, zero_le_one, by ext <;> simp⟩
    obtain ⟨e1, e2, e3, e4⟩ := hc s.e ⟨1, zero_le_one, le_rfl, by ext <;> simp⟩
    exact ⟨(le_min s1 e1).trans p1, p2.trans (max_le s2 e2), (le_min s3 e3).trans p3,
      p4.trans (max_le s4 e4)⟩

example : makeAabbSegment Cmp.direct (⟨⟨2, 0⟩, ⟨1, 3⟩⟩ : Seg ℚ) = ⟨⟨1, 0⟩, ⟨2, 3⟩⟩ := by
  decide +kernel

/-- C14: `bounding_box_intersection` of two point pairs is true exactly when the boxes spanned by
the pairs share a point. -/
theorem C14_bounding_box_intersection (p1 p2 p3 p4 : P2 K) :
    boundingBoxIntersection Cmp.direct p1 p2 p3 p4 = true ↔
      ∃ P, InBox ⟨⟨min p1.x p2.x, min p1.y p2.y⟩, ⟨max p1.x p2.x, max p1.y p2.y⟩⟩ P ∧
        InBox ⟨⟨min p3.x p4.x, min p3.y p4.y⟩, ⟨max p3.x p4.x, max p3.y p4.y⟩⟩ P := by
  have hmm : ∀ a b : K, (if b < a then (b, a) else (a, b)) = (min a b, max a b) := by
    intro a b; grind
  unfold boundingBoxIntersection
  simp only [hmm, Bool.and_eq_true, direct_ge]
  constructor
  · rintro ⟨⟨⟨h1, h2⟩, h3⟩, h4⟩
    exact ⟨⟨max (min p1.x p2.x) (min p3.x p4.x), max (min p1.y p2.y) (min p3.y p4.y)⟩,
      ⟨le_max_left _ _, max_le min_le_max h1, le_max_left _ _, max_le min_le_max h3⟩,
      ⟨le_max_right _ _, max_le h2 min_le_max, le_max_right _ _, max_le h4 min_le_max⟩⟩
  · rintro ⟨P, ⟨a1, a2, a3, a4⟩, b1, b2, b3, b4⟩
    exact ⟨⟨⟨b1.trans a2, a1.trans b2⟩, b3.trans a4⟩, a3.trans b4⟩

example : boundingBoxIntersection Cmp.direct (⟨0, 0⟩ : P2 ℚ) ⟨2, 2⟩ ⟨3, 1⟩ ⟨2, 2⟩ = true ∧
    boundingBoxIntersection Cmp.direct (⟨0, 0⟩ : P2 ℚ) ⟨2, 2⟩ ⟨3, 1⟩ ⟨4, 2⟩ = false := by
  decide +kernel

/-- C14: the four corners, in counter-clockwise order; other indices break the assertion. -/
theorem C14_corner (b : Box K) (i : Nat) :
    (i < 4 → ∃ P, b.corner i = .ok P ∧ (P.x = b.lo.x ∨ P.x = b.hi.x) ∧
      (P.y = b.lo.y ∨ P.y = b.hi.y)) ∧
    (4 ≤ i → b.corner i = .error .assertFailed) ∧
    (b.lo.x < b.hi.x → b.lo.y < b.hi.y → i < 4 → ∀ P Q R, b.corner i = .ok P →
      b.corner ((i + 1) % 4) = .ok Q → b.corner ((i + 2) % 4) = .ok R → 0 < area2 P Q R) := by
  refine ⟨?_, ?_, ?_⟩
  · intro h; interval_cases i <;> simp [Box.corner]
  · intro h
    match i, h with
    | n + 4, _ => rfl
  · intro hx hy h P Q R
    have hx' := sub_pos.mpr hx
    have hy' := sub_pos.mpr hy
    have := mul_pos hx' hy'
    interval_cases i <;> simp only [Box.corner, Except.ok.injEq, Nat.reduceAdd, Nat.reduceMod] <;>
      rintro rfl rfl rfl <;> unfold area2 <;> simp only <;> nlinarith

/-- C14: the circle/box test is true exactly when a point of the box is within the radius. -/
theorem C14_sphere (c : P2 K) (r : K) (b : Box K) (hb : ValidBox b) :
    sphereAabb c r b = true ↔ ∃ P, InBox b P ∧ sqDist c P ≤ r ^ 2 := by
  obtain ⟨hb1, hb2⟩ := hb
  unfold sphereAabb pointAabbDistSq
  rw [axisDistSq_eq hb1, axisDistSq_eq hb2, decide_eq_true_iff, ← sq]
  constructor
  · intro h
    exact ⟨⟨_, _⟩, ⟨(axisClosest_mem hb1).1, (axisClosest_mem hb1).2, (axisClosest_mem hb2).1,
      (axisClosest_mem hb2).2⟩, h⟩
  · rintro ⟨P, ⟨h1, h2, h3, h4⟩, h⟩
    have := axisClosest_le (x := c.x) hb1 h1 h2
    have := axisClosest_le (x := c.y) hb2 h3 h4
    unfold sqDist at h
    linarith

example : sphereAabb (⟨3, 4⟩ : P2 ℚ) 5 ⟨⟨-1, -1⟩, ⟨0, 0⟩⟩ = true ∧
    sphereAabb (⟨3, 5⟩ : P2 ℚ) 5 ⟨⟨-1, -1⟩, ⟨0, 0⟩⟩ = false := by decide +kernel

/-- C14: the overload with a point answers the same, and the point is a point of the box nearest to
the centre. -/
theorem C14_sphere_point (c : P2 K) (r : K) (b : Box K) (hb : ValidBox b) :
    (sphereAabbPoint c r b).1 = sphereAabb c r b ∧ InBox b (sphereAabbPoint c r b).2 ∧
      ∀ P, InBox b P → sqDist c (sphereAabbPoint c r b).2 ≤ sqDist c P := by
  obtain ⟨hb1, hb2⟩ := hb
  refine ⟨?_, ?_, ?_⟩
  · unfold sphereAabb sphereAabbPoint pointAabbDistSq pointAabbClosest
    rw [axisDistSq_eq hb1, axisDistSq_eq hb2]
    simp only [normSq, dot, P2.sub_x, P2.sub_y]
    congr 2
    ring
  · exact ⟨(axisClosest_mem hb1).1, (axisClosest_mem hb1).2, (axisClosest_mem hb2).1,
      (axisClosest_mem hb2).2⟩
  · rintro P ⟨h1, h2, h3, h4⟩
    have := axisClosest_le (x := c.x) hb1 h1 h2
    have := axisClosest_le (x := c.y) hb2 h3 h4
    unfold sqDist sphereAabbPoint pointAabbClosest
    simp only
    linarith

end Geometrix
