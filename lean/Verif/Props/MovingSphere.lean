import Verif.Lemmas.MovingSphereBox

/-!
# C65, C66, C67: a moving sphere against a line, a segment and a box
-/

set_option linter.unusedSectionVars false

namespace Geometrix

open Spec

/-- C65: a moving disc and a line with a unit normal. The answer is `true` exactly if they meet, the time is the first
at which they meet, and the point is the point of the line that is closest to the centre at that time; it is on the
circle unless the disc overlaps the line at the start. The answer counts as touching exactly if the disc touches the
line at the start, and as moving away exactly if the centre does not approach the line. -/
theorem C65_line (c v n : P2 ℝ) (r d : ℝ) (hn : dot n n = 1) (hr : 0 ≤ r) :
    ∃ f o, movingSpherePlane Cmp.direct c r v n d = .ok (f, o) ∧ f.intersecting = o.isSome ∧
      IsFirst (0 ≤ ·) (fun t => DiscMeets (OnNormalLine n d) (c + t • v) r) (o.map Prod.fst) ∧
      (∀ t q, o = some (t, q) → OnNormalLine n d q ∧
        (∀ P, OnNormalLine n d P → sqDist q (c + t • v) ≤ sqDist P (c + t • v)) ∧
        (¬ DiscOverlaps (OnNormalLine n d) c r → OnCircle (c + t • v) r q)) ∧
      (f.intersecting = true ∧ f.penetrating = false ↔
        DiscMeets (OnNormalLine n d) c r ∧ ¬ DiscOverlaps (OnNormalLine n d) c r) ∧
      (f.movingAway = true ↔ ∀ t : ℝ, 0 ≤ t → |dot c n - d| ≤ |dot (c + t • v) n - d|) := by
  obtain ⟨f, o, h1, h2, h3, h4, h5, h6⟩ := movingSpherePlane_spec c v n r d hn hr
  have hn' := hn
  simp only [dot] at hn'
  -- the distance to a point of the line
  have hfoot : ∀ C P : P2 ℝ, OnNormalLine n d P → sqDist P C = (dot C n - d) ^ 2 +
      ((P.x - C.x) * n.y - (P.y - C.y) * n.x) ^ 2 := by
    intro C P hP
    unfold OnNormalLine at hP
    simp only [sqDist, dot]
    rw [← hP]
    linear_combination -((P.x - C.x) ^ 2 + (P.y - C.y) ^ 2) * hn'
  have hproj : ∀ C : P2 ℝ, OnNormalLine n d (C - (dot C n - d) • n) ∧
      sqDist (C - (dot C n - d) • n) C = (dot C n - d) ^ 2 := by
    intro C
    have e1 : (C - (dot C n - d) • n).x * n.x + (C - (dot C n - d) • n).y * n.y =
        dot C n - (dot C n - d) * dot n n := by
      simp only [dot, P2.sub_x, P2.sub_y, P2.smul_x, P2.smul_y]; ring
    have e2 : sqDist (C - (dot C n - d) • n) C = (dot C n - d) ^ 2 * dot n n := by
      simp only [sqDist, dot, P2.sub_x, P2.sub_y, P2.smul_x, P2.smul_y]; ring
    refine ⟨by unfold OnNormalLine; rw [e1, hn]; ring, by rw [e2, hn, mul_one]⟩
  have hover : DiscOverlaps (OnNormalLine n d) c r ↔ |dot c n - d| < r := by
    constructor
    · rintro ⟨P, hP, hd⟩
      rw [hfoot c P hP] at hd
      exact abs_lt_of_sq_lt_sq (by nlinarith [sq_nonneg ((P.x - c.x) * n.y - (P.y - c.y) * n.x)]) hr
    · intro h
      refine ⟨_, (hproj c).1, ?_⟩
      rw [(hproj c).2]
      exact sq_lt_sq' (by linarith [(abs_lt.1 h).1]) (abs_lt.1 h).2
  refine ⟨f, o, h1, h2, isFirst_congr h3 (fun _ => Iff.rfl) (fun t _ => discMeets_line hn hr _), ?_, ?_, ?_⟩
  · intro t q h
    obtain ⟨rfl, hq⟩ := h4 t q h
    refine ⟨(hproj _).1, fun P hP => ?_, fun hno => ?_⟩
    · rw [(hproj _).2, hfoot _ P hP]
      nlinarith [sq_nonneg ((P.x - (c + t • v).x) * n.y - (P.y - (c + t • v).y) * n.x)]
    · rcases hq with hq | ⟨-, hq⟩
      · show sqDist _ (c + t • v) = r ^ 2
        rw [(hproj _).2, ← hq, sq_abs]
      · exact absurd (hover.2 hq) hno
  · rw [discMeets_line hn hr, hover]
    constructor
    · rintro ⟨ha, hb⟩
      have : |dot c n - d| = r := by
        by_contra hne
        have := h5.2 ⟨ha, hne⟩
        rw [hb] at this; simp at this
      exact ⟨this.le, this.not_lt⟩
    · rintro ⟨ha, hb⟩
      have he : |dot c n - d| = r := le_antisymm ha (not_lt.1 hb)
      refine ⟨?_, ?_⟩
      · rw [h2]
        cases o with
        | none =>
          exfalso
          refine h3 0 (le_refl _) ?_
          have : c + (0 : ℝ) • v = c := by ext <;> simp
          show |dot (c + (0 : ℝ) • v) n - d| ≤ r
          rw [this]; exact ha
        | some _ => rfl
      · by_contra hp
        have := h5.1 (by simpa using hp)
        exact this.2 he
  · rw [h6]
    simp only [dot_along]
    generalize dot c n = x
    generalize dot v n = w
    constructor
    · intro h t ht
      apply sq_le_sq.1
      nlinarith [mul_nonneg ht h, sq_nonneg (t * w)]
    · intro h
      by_contra hn
      push Not at hn
      -- a small step towards the line
      have hw : w ≠ 0 := by rintro rfl; simp at hn
      have hw2 : 0 < w ^ 2 := by positivity
      have hstep : 0 ≤ -(w * (x - d)) / w ^ 2 := div_nonneg (by linarith) hw2.le
      have := sq_le_sq.2 (h _ hstep)
      have e : x + -(w * (x - d)) / w ^ 2 * w - d = 0 := by field_simp; ring
      rw [e] at this
      have hx : x - d = 0 := by nlinarith [sq_nonneg (x - d)]
      rw [hx] at hn; simp at hn

/-- A disc above the line `y = 0` that moves down meets it at the time `1`. -/
example : dot (⟨0, 1⟩ : P2 ℝ) ⟨0, 1⟩ = 1 ∧ ¬ DiscMeets (OnNormalLine ⟨0, 1⟩ 0) (⟨0, 2⟩ : P2 ℝ) 1 ∧
    DiscMeets (OnNormalLine ⟨0, 1⟩ 0) ((⟨0, 2⟩ : P2 ℝ) + (1 : ℝ) • ⟨1, -1⟩) 1 := by
  have hn : dot (⟨0, 1⟩ : P2 ℝ) ⟨0, 1⟩ = 1 := by simp [dot]
  refine ⟨hn, ?_, ?_⟩
  · rw [discMeets_line hn (by norm_num)]; norm_num [dot]
  · rw [discMeets_line hn (by norm_num)]; norm_num [dot]

/-- C66: a moving disc and a segment. The full statement has no hypothesis on the start, and the point is on the
segment also for discs that overlap it at the start. Missing: radius zero, and a disc that touches an end of the
segment at the start without approaching it; the point for discs that overlap the segment at the start. The velocity
is not zero by the precondition in the code. -/
theorem C66_segment_partial (c v a b : P2 ℝ) (r : ℝ) (hab : a ≠ b) (hv : v ≠ 0) (hr : 0 < r)
    (ha : OnCircle c r a → dot (c - a) v < 0) (hb : OnCircle c r b → dot (c - b) v < 0) :
    ∃ f o, movingSphereSegment Cmp.direct c r v a b = .ok (f, o) ∧ f.intersecting = o.isSome ∧
      IsFirst (0 ≤ ·) (fun t => DiscMeets (OnSegment a b) (c + t • v) r) (o.map Prod.fst) ∧
      ∀ t q, o = some (t, q) → ¬ DiscOverlaps (OnSegment a b) c r →
        OnSegment a b q ∧ OnCircle (c + t • v) r q :=
  movingSphereSegment_spec c v a b r hab hv hr ha hb

/-- A disc that runs along the line of the segment to its end. -/
example : (⟨0, 0⟩ : P2 ℝ) ≠ ⟨1, 0⟩ ∧ (⟨1, 0⟩ : P2 ℝ) ≠ 0 ∧ ¬ OnCircle (⟨-3, 0⟩ : P2 ℝ) 1 ⟨0, 0⟩ ∧
    ¬ OnCircle (⟨-3, 0⟩ : P2 ℝ) 1 ⟨1, 0⟩ ∧
    DiscMeets (OnSegment ⟨0, 0⟩ ⟨1, 0⟩) ((⟨-3, 0⟩ : P2 ℝ) + (2 : ℝ) • ⟨1, 0⟩) 1 := by
  refine ⟨fun h => ?_, fun h => ?_, ?_, ?_, ⟨0, 0⟩, ⟨0, by norm_num, by norm_num, by ext <;> simp⟩, ?_⟩
  · have := congrArg P2.x h; norm_num at this
  · have := congrArg P2.x h; norm_num at this
  · norm_num [OnCircle]
  · norm_num [OnCircle]
  · norm_num [InDisc]

/-- C66, disagreement: a disc that touches the end of the segment at the start and moves along the tangent meets the
segment at the time zero, but the answer is `false`. -/
theorem C66_touching_refuted : ∃ (c v a b : P2 ℝ) (r : ℝ), a ≠ b ∧ v ≠ 0 ∧ 0 < r ∧
    DiscMeets (OnSegment a b) c r ∧ ∃ f, movingSphereSegment Cmp.direct c r v a b = .ok (f, none) := by
  refine ⟨⟨-1, 0⟩, ⟨0, 1⟩, ⟨0, 0⟩, ⟨1, 0⟩, 1, fun h => ?_, fun h => ?_, by norm_num,
    ⟨⟨0, 0⟩, ⟨0, by norm_num, by norm_num, by ext <;> simp⟩, by norm_num [InDisc]⟩, ?_⟩
  · have := congrArg P2.x h; norm_num at this
  · have := congrArg P2.y h; norm_num at this
  · have hl : makeLine (⟨0, 0⟩ : P2 ℝ) ⟨1, 0⟩ = .ok ⟨⟨0, 0⟩, ⟨1, 0⟩, ⟨0, 1⟩, 0⟩ := by
      norm_num [makeLine, makeLineV, normalize2, normSq, dot, leftNormal]
      ext <;> simp
    have hp : movingSpherePlane Cmp.direct (⟨-1, 0⟩ : P2 ℝ) 1 ⟨0, 1⟩ ⟨0, 1⟩ 0 =
        .ok (⟨true, true, true⟩, some (0, ⟨-1, 0⟩)) := by
      norm_num [movingSpherePlane, dot, cdiv]
      ext <;> simp
    have hb : isBetween Cmp.direct (⟨0, 0⟩ : P2 ℝ) ⟨1, 0⟩ ⟨-1, 0⟩ true = false := by
      have hne : (⟨0, 0⟩ : P2 ℝ) ≠ ⟨1, 0⟩ := fun h => by have := congrArg P2.x h; norm_num at this
      rw [Bool.eq_false_iff, ne_eq, isBetween_iff_onSegment hne]
      rintro ⟨t, h0, -, h⟩
      have := congrArg P2.x h
      simp at this; linarith
    have hd : distSq (⟨-1, 0⟩ : P2 ℝ) ⟨1, 0⟩ = 4 := by norm_num [distSq, normSq, dot]
    have hd' : distSq (⟨-1, 0⟩ : P2 ℝ) ⟨0, 0⟩ = 1 := by norm_num [distSq, normSq, dot]
    have he : movingSphereEnd Cmp.direct (⟨0, 1⟩ : P2 ℝ) ⟨-1, 0⟩ 1 ⟨0, 0⟩ = .ok none := by
      norm_num [movingSphereEnd, dot, cdiv]
    unfold movingSphereSegment
    rw [hl]; dsimp only
    rw [hp]; dsimp only
    rw [hb, hd, hd', if_neg (by simp), if_neg (by norm_num), he]
    exact ⟨_, rfl⟩

/-- C66, disagreement: for a disc that overlaps an end of the segment at the start, the point need not be on the
segment. -/
theorem C66_overlap_refuted : ∃ (c v a b : P2 ℝ) (r : ℝ), a ≠ b ∧ v ≠ 0 ∧ 0 < r ∧
    ∃ f q, movingSphereSegment Cmp.direct c r v a b = .ok (f, some (0, q)) ∧ ¬ OnSegment a b q := by
  refine ⟨⟨-1, 0⟩, ⟨1, 0⟩, ⟨0, 0⟩, ⟨1 / 2, 0⟩, 2, fun h => ?_, fun h => ?_, by norm_num, ?_⟩
  · have := congrArg P2.x h; norm_num at this
  · have := congrArg P2.x h; norm_num at this
  · have hs : Real.sqrt (1 / 4) = 1 / 2 := by
      rw [show (1 / 4 : ℝ) = (1 / 2) ^ 2 by norm_num]; exact Real.sqrt_sq (by norm_num)
    have hs4 : Real.sqrt 4 = 2 := by
      rw [show (4 : ℝ) = 2 ^ 2 by norm_num]; exact Real.sqrt_sq (by norm_num)
    have hl : makeLine (⟨0, 0⟩ : P2 ℝ) ⟨1 / 2, 0⟩ = .ok ⟨⟨0, 0⟩, ⟨1, 0⟩, ⟨0, 1⟩, 0⟩ := by
      have hne : (⟨0, 0⟩ : P2 ℝ) ≠ ⟨1 / 2, 0⟩ := fun h => by have := congrArg P2.x h; norm_num at this
      rw [makeLine_ok hne]
      have : Spec.dist (⟨0, 0⟩ : P2 ℝ) ⟨1 / 2, 0⟩ = 1 / 2 := by
        unfold Spec.dist; rw [← hs]; norm_num
      rw [this]
      norm_num [leftNormal, dot]
      ext <;> norm_num
    have hp : movingSpherePlane Cmp.direct (⟨-1, 0⟩ : P2 ℝ) 2 ⟨1, 0⟩ ⟨0, 1⟩ 0 =
        .ok (⟨true, true, true⟩, some (0, ⟨-1, 0⟩)) := by
      norm_num [movingSpherePlane, dot, cdiv]
      ext <;> simp
    have hb : isBetween Cmp.direct (⟨0, 0⟩ : P2 ℝ) ⟨1 / 2, 0⟩ ⟨-1, 0⟩ true = false := by
      have hne : (⟨0, 0⟩ : P2 ℝ) ≠ ⟨1 / 2, 0⟩ := fun h => by have := congrArg P2.x h; norm_num at this
      rw [Bool.eq_false_iff, ne_eq, isBetween_iff_onSegment hne]
      rintro ⟨t, h0, -, h⟩
      have := congrArg P2.x h
      simp at this; linarith
    have hd : distSq (⟨-1, 0⟩ : P2 ℝ) ⟨1 / 2, 0⟩ = 9 / 4 := by norm_num [distSq, normSq, dot]
    have hd' : distSq (⟨-1, 0⟩ : P2 ℝ) ⟨0, 0⟩ = 1 := by norm_num [distSq, normSq, dot]
    have he : movingSphereEnd Cmp.direct (⟨1, 0⟩ : P2 ℝ) ⟨-1, 0⟩ 2 ⟨0, 0⟩ = .ok (some (0, ⟨1, 0⟩)) := by
      norm_num [movingSphereEnd, dot, cdiv, csqrt, hs4, normalize2, normSq]
      ext <;> norm_num
    unfold movingSphereSegment
    rw [hl]; dsimp only
    rw [hp]; dsimp only
    rw [hb, hd, hd', if_neg (by simp), if_neg (by norm_num), he]
    refine ⟨_, _, rfl, ?_⟩
    rintro ⟨t, -, h1, h⟩
    have := congrArg P2.x h
    simp at this; linarith

/-- C66, disagreement: a point that runs along the line of the segment to its end: the zero vector is normalized,
which fails an assertion. -/
theorem C66_point_refuted : ∃ (c v a b : P2 ℝ), a ≠ b ∧ v ≠ 0 ∧
    movingSphereSegment Cmp.direct c 0 v a b = .error .assertFailed := by
  refine ⟨⟨-1, 0⟩, ⟨1, 0⟩, ⟨0, 0⟩, ⟨1, 0⟩, fun h => ?_, fun h => ?_, ?_⟩
  · have := congrArg P2.x h; norm_num at this
  · have := congrArg P2.x h; norm_num at this
  · have hl : makeLine (⟨0, 0⟩ : P2 ℝ) ⟨1, 0⟩ = .ok ⟨⟨0, 0⟩, ⟨1, 0⟩, ⟨0, 1⟩, 0⟩ := by
      norm_num [makeLine, makeLineV, normalize2, normSq, dot, leftNormal]
      ext <;> simp
    have hp : movingSpherePlane Cmp.direct (⟨-1, 0⟩ : P2 ℝ) 0 ⟨1, 0⟩ ⟨0, 1⟩ 0 =
        .ok (⟨true, false, true⟩, some (0, ⟨-1, 0⟩)) := by
      norm_num [movingSpherePlane, dot, cdiv]
      ext <;> simp
    have hb : isBetween Cmp.direct (⟨0, 0⟩ : P2 ℝ) ⟨1, 0⟩ ⟨-1, 0⟩ true = false := by
      have hne : (⟨0, 0⟩ : P2 ℝ) ≠ ⟨1, 0⟩ := fun h => by have := congrArg P2.x h; norm_num at this
      rw [Bool.eq_false_iff, ne_eq, isBetween_iff_onSegment hne]
      rintro ⟨t, h0, -, h⟩
      have := congrArg P2.x h
      simp at this; linarith
    have hd : distSq (⟨-1, 0⟩ : P2 ℝ) ⟨1, 0⟩ = 4 := by norm_num [distSq, normSq, dot]
    have hd' : distSq (⟨-1, 0⟩ : P2 ℝ) ⟨0, 0⟩ = 1 := by norm_num [distSq, normSq, dot]
    have he : movingSphereEnd Cmp.direct (⟨1, 0⟩ : P2 ℝ) ⟨-1, 0⟩ 0 ⟨0, 0⟩ = .error .assertFailed := by
      norm_num [movingSphereEnd, dot, cdiv, csqrt, normalize2, normSq]
    unfold movingSphereSegment
    rw [hl]; dsimp only
    rw [hp]; dsimp only
    rw [hb, hd, hd', if_neg (by simp), if_neg (by norm_num), he]

/-- C67: a moving disc and a box. The full statement is for every start. Missing: a centre that is in the box expanded
by the radius at the start, radius zero, and boxes without interior. -/
theorem C67_box_partial (c v : P2 ℝ) (r : ℝ) (a : Box ℝ) (hax : a.lo.x < a.hi.x) (hay : a.lo.y < a.hi.y)
    (hr : 0 < r) (hv : v ≠ 0) (hout : ¬ InBox ⟨a.lo - ⟨r, r⟩, a.hi + ⟨r, r⟩⟩ c) :
    ∃ o, movingSphereAabb Cmp.direct c r v a = .ok o ∧
      IsFirst (0 ≤ ·) (fun t => DiscMeets (InBox a) (c + t • v) r) (o.map Prod.fst) ∧
      ∀ t q, o = some (t, q) → InBox a q ∧ OnCircle (c + t • v) r q :=
  movingSphereAabb_spec c v r a hax hay hr hv hout

/-- A disc that meets the corner of the unit square. -/
example : ¬ InBox (⟨(⟨0, 0⟩ : P2 ℝ) - ⟨1, 1⟩, ⟨1, 1⟩ + ⟨1, 1⟩⟩ : Box ℝ) ⟨-3, -3⟩ ∧
    DiscMeets (InBox ⟨⟨0, 0⟩, ⟨1, 1⟩⟩) ((⟨-3, -3⟩ : P2 ℝ) + (5 / 2 : ℝ) • ⟨1, 1⟩) 1 := by
  refine ⟨by norm_num [InBox], ⟨0, 0⟩, by norm_num [InBox], by norm_num [InDisc]⟩

/-- C67, disagreement: a disc whose centre starts in the expanded box near a corner, but which does not meet the box,
may be reported to meet it at the time zero: the region is taken from the point at which the ray leaves the expanded
box. -/
theorem C67_apart_refuted : ∃ (c v : P2 ℝ) (r : ℝ) (a : Box ℝ), a.lo.x < a.hi.x ∧ a.lo.y < a.hi.y ∧ 0 < r ∧ v ≠ 0 ∧
    (∀ t : ℝ, 0 ≤ t → t < 1 / 20 → ¬ DiscMeets (InBox a) (c + t • v) r) ∧
    ∃ q, movingSphereAabb Cmp.direct c r v a = .ok (some (0, q)) := by
  refine ⟨⟨-9 / 10, -9 / 10⟩, ⟨-1, 10⟩, 1, ⟨⟨0, 0⟩, ⟨1, 1⟩⟩, by norm_num, by norm_num, by norm_num,
    fun h => ?_, ?_, ?_⟩
  · have := congrArg P2.x h; norm_num at this
  · rintro t h0 h1 ⟨P, ⟨hx, -, hy, -⟩, hd⟩
    unfold InDisc at hd
    simp only [P2.add_x, P2.add_y, P2.smul_x, P2.smul_y] at hd hx hy
    nlinarith
  · have hr : rayAabb Cmp.direct (⟨-9 / 10, -9 / 10⟩ : P2 ℝ) ⟨-1, 10⟩
        ⟨(⟨0, 0⟩ : P2 ℝ) - ⟨1, 1⟩, ⟨1, 1⟩ + ⟨1, 1⟩⟩ = .ok (some ⟨true, 0, ⟨-1, 1 / 10⟩⟩) := by
      norm_num [rayAabb, slabStep, Box.intersectsPoint, cdiv]
      ext <;> norm_num
    unfold movingSphereAabb
    dsimp only
    rw [hr]
    have hc : ∀ b : Box ℝ, boxCorner b (1 ^^^ 3) = ⟨b.lo.x, b.hi.y⟩ ∧ boxCorner b 0 = b.lo := fun b => ⟨rfl, rfl⟩
    have hk : pointSegClosestPts (⟨-9 / 10, -9 / 10⟩ : P2 ℝ) ⟨0, 1⟩ ⟨0, 0⟩ = .ok ⟨0, 0⟩ := by
      norm_num [pointSegClosestPts, dot, cdiv]
    have hne : (⟨0, 0⟩ : P2 ℝ) - ⟨-9 / 10, -9 / 10⟩ ≠ 0 := fun h => by
      have := congrArg P2.x h; norm_num at this
    have h0 : (⟨-9 / 10, -9 / 10⟩ : P2 ℝ) + (0 : ℝ) • ⟨-1, 10⟩ = ⟨-9 / 10, -9 / 10⟩ := by ext <;> norm_num
    norm_num only [gt_iff_lt, if_true, if_false]
    simp only [hc]
    rw [show ((-9 / 10 : ℝ)) = -(9 / 10) by norm_num] at h0 hk hne
    rw [h0, hk]
    dsimp only
    rw [(normalize_ne hne).1]
    exact ⟨_, rfl⟩

/-- C67, disagreement: a disc that overlaps the box at the start need not be reported at the time zero. -/
theorem C67_overlap_refuted : ∃ (c v : P2 ℝ) (r : ℝ) (a : Box ℝ), a.lo.x < a.hi.x ∧ a.lo.y < a.hi.y ∧ 0 < r ∧ v ≠ 0 ∧
    DiscMeets (InBox a) c r ∧ ∀ q, movingSphereAabb Cmp.direct c r v a ≠ .ok (some (0, q)) := by
  refine ⟨⟨-1 / 2, 5⟩, ⟨2, 1⟩, 1, ⟨⟨0, 0⟩, ⟨10, 10⟩⟩, by norm_num, by norm_num, by norm_num,
    fun h => ?_, ⟨⟨0, 5⟩, by norm_num [InBox], by norm_num [InDisc]⟩, fun q => ?_⟩
  · have := congrArg P2.x h; norm_num at this
  · have hr : rayAabb Cmp.direct (⟨-1 / 2, 5⟩ : P2 ℝ) ⟨2, 1⟩
        ⟨(⟨0, 0⟩ : P2 ℝ) - ⟨1, 1⟩, ⟨10, 10⟩ + ⟨1, 1⟩⟩ = .ok (some ⟨true, 0, ⟨11, 43 / 4⟩⟩) := by
      norm_num [rayAabb, slabStep, Box.intersectsPoint, cdiv]
      ext <;> norm_num
    unfold movingSphereAabb
    dsimp only
    rw [hr]
    have hseg : ∀ A B : P2 ℝ, A ≠ B → (∀ P, OnSegment A B P → 1 < sqDist P ⟨-1 / 2, 5⟩) →
        ∃ f o, movingSphereSegment Cmp.direct (⟨-1 / 2, 5⟩ : P2 ℝ) 1 ⟨2, 1⟩ A B = .ok (f, o) ∧
          ∀ x, o = some x → x.1 ≠ 0 := by
      intro A B hAB hfar
      have hA := hfar A ⟨0, le_refl _, zero_le_one, by ext <;> simp⟩
      have hB := hfar B ⟨1, zero_le_one, le_refl _, by ext <;> simp⟩
      obtain ⟨f, o, h1, -, h3, -⟩ := movingSphereSegment_spec (⟨-1 / 2, 5⟩ : P2 ℝ) ⟨2, 1⟩ A B 1 hAB
        (fun h => by have := congrArg P2.x h; norm_num at this) one_pos
        (fun h => by unfold OnCircle at h; unfold sqDist at hA; linarith)
        (fun h => by unfold OnCircle at h; unfold sqDist at hB; linarith)
      refine ⟨f, o, h1, ?_⟩
      rintro ⟨t, q⟩ rfl rfl
      obtain ⟨-, ⟨P, hP, hd⟩, -⟩ := h3
      have := hfar P hP
      unfold InDisc at hd
      unfold sqDist at this
      simp only [P2.add_x, P2.add_y, P2.smul_x, P2.smul_y, zero_mul, add_zero] at hd
      linarith
    obtain ⟨f1, o1, e1, n1⟩ := hseg ⟨10, 10⟩ ⟨0, 10⟩
      (fun h => by have := congrArg P2.x h; norm_num at this) (by
        rintro P ⟨t, -, -, rfl⟩
        simp only [sqDist, P2.add_x, P2.add_y, P2.smul_x, P2.smul_y, P2.sub_x, P2.sub_y]
        nlinarith [sq_nonneg (10 + t * (0 - 10) - -1 / 2)])
    obtain ⟨f2, o2, e2, n2⟩ := hseg ⟨10, 10⟩ ⟨10, 0⟩
      (fun h => by have := congrArg P2.y h; norm_num at this) (by
        rintro P ⟨t, -, -, rfl⟩
        simp only [sqDist, P2.add_x, P2.add_y, P2.smul_x, P2.smul_y, P2.sub_x, P2.sub_y]
        nlinarith [sq_nonneg (10 + t * (0 - 10) - 5)])
    have hc : ∀ b : Box ℝ, boxCorner b 3 = b.hi ∧ boxCorner b (3 ^^^ 1) = ⟨b.lo.x, b.hi.y⟩ ∧
        boxCorner b (3 ^^^ 2) = ⟨b.hi.x, b.lo.y⟩ := fun b => ⟨rfl, rfl, rfl⟩
    norm_num only [gt_iff_lt, if_true, if_false]
    simp only [hc]
    rw [show ((-1 / 2 : ℝ)) = -(1 / 2) by norm_num] at e1 e2
    rw [e1]; dsimp only
    rw [e2]; dsimp only
    intro h
    cases o1 with
    | none =>
      cases o2 with
      | none => simp at h
      | some y => simp only [Except.ok.injEq, Option.some.injEq] at h; exact n2 y rfl (by rw [h])
    | some x =>
      cases o2 with
      | none => simp only [Except.ok.injEq, Option.some.injEq] at h; exact n1 x rfl (by rw [h])
      | some y =>
        simp only [Except.ok.injEq, Option.some.injEq] at h
        split_ifs at h
        · exact n2 y rfl (by rw [h])
        · exact n1 x rfl (by rw [h])

end Geometrix
