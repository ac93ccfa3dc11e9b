import Verif.Lemmas.Box

/-!
# C12: segments and rays with boxes
-/

set_option linter.unusedSectionVars false

namespace Geometrix

open Spec

variable {K : Type*} [Field K] [LinearOrder K] [IsStrictOrderedRing K]

/-- C12: without the extra epsilon the planar segment test is exact. (The code adds the machine
epsilon; see `C12_segment_partial` and `C12_segment_epsilon_refuted`.) -/
theorem C12_segment_exact (A B : P2 K) (b : Box K) (hb : ValidBox b) :
    segmentAabb 0 A B b = true ↔ ∃ P, OnSegment A B P ∧ InBox b P := by
  obtain ⟨hb1, hb2⟩ := hb
  have hrun : segmentAabb 0 A B b = true ↔
      |(A.x - b.lo.x) + (B.x - b.hi.x)| ≤ (b.hi.x - b.lo.x) + |B.x - A.x| ∧
      |(A.y - b.lo.y) + (B.y - b.hi.y)| ≤ (b.hi.y - b.lo.y) + |B.y - A.y| ∧
      |((A.x - b.lo.x) + (B.x - b.hi.x)) * (B.y - A.y) -
        ((A.y - b.lo.y) + (B.y - b.hi.y)) * (B.x - A.x)| ≤
        (b.hi.x - b.lo.x) * |B.y - A.y| + (b.hi.y - b.lo.y) * |B.x - A.x| := by
    unfold segmentAabb
    simp only [P2.add_x, P2.add_y, P2.sub_x, P2.sub_y, add_zero, gt_iff_lt]
    split_ifs with h1 h2 h3
    · simp only [false_iff]; rintro ⟨h, _⟩; exact absurd h1 (not_lt.mpr h)
    · simp only [false_iff]; rintro ⟨_, h, _⟩; exact absurd h2 (not_lt.mpr h)
    · simp only [false_iff]; rintro ⟨_, _, h⟩; exact absurd h3 (not_lt.mpr h)
    · simp only [true_iff]; exact ⟨not_lt.mp h1, not_lt.mp h2, not_lt.mp h3⟩
  rw [hrun]
  constructor
  · rintro ⟨h1, h2, h3⟩
    have e1 : (0 : K) ≤ b.hi.x - b.lo.x := sub_nonneg.mpr hb1
    have e2 : (0 : K) ≤ b.hi.y - b.lo.y := sub_nonneg.mpr hb2
    have hp := axis_pair h1 h2 h3
    have hp' := axis_pair h2 h1 (by rw [abs_sub_comm]; linarith)
    obtain ⟨u1, u1'⟩ := axis_unit h1
    obtain ⟨u2, u2'⟩ := axis_unit h2
    have v1 := axis_valid (m := (A.x - b.lo.x) + (B.x - b.hi.x)) (d := B.x - A.x) e1
    have v2 := axis_valid (m := (A.y - b.lo.y) + (B.y - b.hi.y)) (d := B.y - A.y) e2
    set l1 := axisLo ((A.x - b.lo.x) + (B.x - b.hi.x)) (B.x - A.x) (b.hi.x - b.lo.x)
    set l2 := axisLo ((A.y - b.lo.y) + (B.y - b.hi.y)) (B.y - A.y) (b.hi.y - b.lo.y)
    have t1 : -1 ≤ max (-1) (max l1 l2) := le_max_left _ _
    have t2 : max (-1) (max l1 l2) ≤ 1 := max_le (by norm_num) (max_le u1 u2)
    have a1 := axis_box.mp (axis_mem h1 (τ := max (-1) (max l1 l2))
      ((le_max_left _ _).trans (le_max_right _ _)) (max_le u1' (max_le v1 hp')))
    have a2 := axis_box.mp (axis_mem h2 (τ := max (-1) (max l1 l2))
      ((le_max_right _ _).trans (le_max_right _ _)) (max_le u2' (max_le hp v2)))
    refine ⟨A + ((max (-1) (max l1 l2) + 1) / 2) • (B - A), ⟨_, ?_, ?_, rfl⟩, a1.1, a1.2, a2.1, a2.2⟩
    · linarith
    · linarith
  · rintro ⟨P, ⟨t, h0, h1, rfl⟩, a1, a2, a3, a4⟩
    have ht : t = ((2 * t - 1) + 1) / 2 := by ring
    have q1 := axis_box.mpr (by rw [← ht]; exact ⟨a1, a2⟩ :
      b.lo.x ≤ A.x + ((2 * t - 1) + 1) / 2 * (B.x - A.x) ∧
        A.x + ((2 * t - 1) + 1) / 2 * (B.x - A.x) ≤ b.hi.x)
    have q2 := axis_box.mpr (by rw [← ht]; exact ⟨a3, a4⟩ :
      b.lo.y ≤ A.y + ((2 * t - 1) + 1) / 2 * (B.y - A.y) ∧
        A.y + ((2 * t - 1) + 1) / 2 * (B.y - A.y) ≤ b.hi.y)
    exact ⟨unit_of_mem q1 (by linarith) (by linarith), unit_of_mem q2 (by linarith) (by linarith),
      pair_of_mem q1 q2⟩

example : segmentAabb 0 (⟨-1, 1⟩ : P2 ℚ) ⟨1, -1⟩ ⟨⟨0, 0⟩, ⟨1, 1⟩⟩ = true ∧
    segmentAabb 0 (⟨3, 0⟩ : P2 ℚ) ⟨0, 3⟩ ⟨⟨0, 0⟩, ⟨1, 1⟩⟩ = false ∧
    ValidBox (⟨⟨0, 0⟩, ⟨1, 1⟩⟩ : Box ℚ) := by
  refine ⟨by decide +kernel, by decide +kernel, ?_⟩
  constructor <;> norm_num

/-- C12, what the code guarantees for a non negative epsilon: a segment that meets the box is never
missed. Missing: the converse, refuted below. -/
theorem C12_segment_partial (eps : K) (he : 0 ≤ eps) (A B : P2 K) (b : Box K) (hb : ValidBox b)
    (h : ∃ P, OnSegment A B P ∧ InBox b P) : segmentAabb eps A B b = true := by
  have h0 := (C12_segment_exact A B b hb).mpr h
  obtain ⟨hb1, hb2⟩ := hb
  unfold segmentAabb at h0 ⊢
  simp only [P2.add_x, P2.add_y, P2.sub_x, P2.sub_y, add_zero, gt_iff_lt] at h0 ⊢
  split_ifs at h0 with h1 h2 h3
  rw [if_neg h1, if_neg h2, if_neg]
  push Not at h3 ⊢
  refine h3.trans ?_
  have : 0 ≤ (b.hi.x - b.lo.x) * eps := mul_nonneg (sub_nonneg.mpr hb1) he
  have : 0 ≤ (b.hi.y - b.lo.y) * eps := mul_nonneg (sub_nonneg.mpr hb2) he
  linarith

/-- C12 is false for the code: for every positive epsilon there is a segment that misses the unit
box and is reported as meeting it. -/
theorem C12_segment_epsilon_refuted (eps : K) (he : 0 < eps) :
    ∃ A B : P2 K, segmentAabb eps A B ⟨⟨0, 0⟩, ⟨1, 1⟩⟩ = true ∧
      ¬ ∃ P, OnSegment A B P ∧ InBox ⟨⟨0, 0⟩, ⟨1, 1⟩⟩ P := by
  obtain ⟨δ, hδ, hδ1, hδe⟩ : ∃ δ : K, 0 < δ ∧ δ ≤ 1 ∧ 3 * δ ≤ eps :=
    ⟨min 1 (eps / 3), lt_min one_pos (by positivity), min_le_left _ _, by
      have := min_le_right 1 (eps / 3); linarith⟩
  refine ⟨⟨2 + δ, 0⟩, ⟨0, 2 + δ⟩, ?_, ?_⟩
  · unfold segmentAabb
    simp only [P2.add_x, P2.add_y, P2.sub_x, P2.sub_y, gt_iff_lt]
    have a1 : |(0 : K) - (2 + δ)| = 2 + δ := by
      rw [abs_of_neg (by linarith)]; ring
    have a2 : |(2 + δ) - (0 : K)| = 2 + δ := by
      rw [abs_of_pos (by linarith)]; ring
    rw [a1, a2, if_neg, if_neg, if_neg]
    · push Not
      rw [abs_le]; constructor <;> nlinarith
    · push Not
      rw [abs_le]; constructor <;> nlinarith
    · push Not
      rw [abs_le]; constructor <;> nlinarith
  · rintro ⟨P, ⟨t, h0, h1, rfl⟩, h2, h3, h4, h5⟩
    simp at h2 h3 h4 h5
    nlinarith

/-- C12, in space, without the epsilon. -/
theorem C12_segment_exact_space (A B : P3 K) (b : Box3 K) (hb : ValidBox3 b) :
    segmentAabb3 0 A B b = true ↔ ∃ P, OnSegment3 A B P ∧ InBox3 b P := by
  obtain ⟨hb1, hb2, hb3⟩ := hb
  have hrun : segmentAabb3 0 A B b = true ↔
      |(A.x - b.lo.x) + (B.x - b.hi.x)| ≤ (b.hi.x - b.lo.x) + |B.x - A.x| ∧
      |(A.y - b.lo.y) + (B.y - b.hi.y)| ≤ (b.hi.y - b.lo.y) + |B.y - A.y| ∧
      |(A.z - b.lo.z) + (B.z - b.hi.z)| ≤ (b.hi.z - b.lo.z) + |B.z - A.z| ∧
      |((A.y - b.lo.y) + (B.y - b.hi.y)) * (B.z - A.z) -
        ((A.z - b.lo.z) + (B.z - b.hi.z)) * (B.y - A.y)| ≤
        (b.hi.y - b.lo.y) * |B.z - A.z| + (b.hi.z - b.lo.z) * |B.y - A.y| ∧
      |((A.z - b.lo.z) + (B.z - b.hi.z)) * (B.x - A.x) -
        ((A.x - b.lo.x) + (B.x - b.hi.x)) * (B.z - A.z)| ≤
        (b.hi.x - b.lo.x) * |B.z - A.z| + (b.hi.z - b.lo.z) * |B.x - A.x| ∧
      |((A.x - b.lo.x) + (B.x - b.hi.x)) * (B.y - A.y) -
        ((A.y - b.lo.y) + (B.y - b.hi.y)) * (B.x - A.x)| ≤
        (b.hi.x - b.lo.x) * |B.y - A.y| + (b.hi.y - b.lo.y) * |B.x - A.x| := by
    unfold segmentAabb3
    simp only [P3.add_x, P3.add_y, P3.add_z, P3.sub_x, P3.sub_y, P3.sub_z, add_zero, gt_iff_lt]
    split_ifs with h1 h2 h3 h4 h5 h6
    · simp only [false_iff]; rintro ⟨h, _⟩; exact absurd h1 (not_lt.mpr h)
    · simp only [false_iff]; rintro ⟨_, h, _⟩; exact absurd h2 (not_lt.mpr h)
    · simp only [false_iff]; rintro ⟨_, _, h, _⟩; exact absurd h3 (not_lt.mpr h)
    · simp only [false_iff]; rintro ⟨_, _, _, h, _⟩; exact absurd h4 (not_lt.mpr h)
    · simp only [false_iff]; rintro ⟨_, _, _, _, h, _⟩; exact absurd h5 (not_lt.mpr h)
    · simp only [false_iff]; rintro ⟨_, _, _, _, _, h⟩; exact absurd h6 (not_lt.mpr h)
    · simp only [true_iff]
      exact ⟨not_lt.mp h1, not_lt.mp h2, not_lt.mp h3, not_lt.mp h4, not_lt.mp h5, not_lt.mp h6⟩
  rw [hrun]
  constructor
  · rintro ⟨h1, h2, h3, h23, h31, h12⟩
    have e1 : (0 : K) ≤ b.hi.x - b.lo.x := sub_nonneg.mpr hb1
    have e2 : (0 : K) ≤ b.hi.y - b.lo.y := sub_nonneg.mpr hb2
    have e3 : (0 : K) ≤ b.hi.z - b.lo.z := sub_nonneg.mpr hb3
    have p12 := axis_pair h1 h2 h12
    have p21 := axis_pair h2 h1 (by rw [abs_sub_comm]; linarith)
    have p23 := axis_pair h2 h3 h23
    have p32 := axis_pair h3 h2 (by rw [abs_sub_comm]; linarith)
    have p31 := axis_pair h3 h1 (by linarith)
    have p13 := axis_pair h1 h3 (by rw [abs_sub_comm]; linarith)
    obtain ⟨u1, u1'⟩ := axis_unit h1
    obtain ⟨u2, u2'⟩ := axis_unit h2
    obtain ⟨u3, u3'⟩ := axis_unit h3
    have v1 := axis_valid (m := (A.x - b.lo.x) + (B.x - b.hi.x)) (d := B.x - A.x) e1
    have v2 := axis_valid (m := (A.y - b.lo.y) + (B.y - b.hi.y)) (d := B.y - A.y) e2
    have v3 := axis_valid (m := (A.z - b.lo.z) + (B.z - b.hi.z)) (d := B.z - A.z) e3
    set l1 := axisLo ((A.x - b.lo.x) + (B.x - b.hi.x)) (B.x - A.x) (b.hi.x - b.lo.x)
    set l2 := axisLo ((A.y - b.lo.y) + (B.y - b.hi.y)) (B.y - A.y) (b.hi.y - b.lo.y)
    set l3 := axisLo ((A.z - b.lo.z) + (B.z - b.hi.z)) (B.z - A.z) (b.hi.z - b.lo.z)
    obtain ⟨τ, hτ⟩ : ∃ τ, τ = max (-1) (max l1 (max l2 l3)) := ⟨_, rfl⟩
    have t0 : -1 ≤ τ := by rw [hτ]; exact le_max_left _ _
    have t1 : l1 ≤ τ := by rw [hτ]; simp
    have t2 : l2 ≤ τ := by rw [hτ]; simp
    have t3 : l3 ≤ τ := by rw [hτ]; simp
    have t4 : τ ≤ 1 := by rw [hτ]; exact max_le (by norm_num) (max_le u1 (max_le u2 u3))
    have a1 := axis_box.mp (axis_mem h1 t1 (by
      rw [hτ]; exact max_le u1' (max_le v1 (max_le p21 p31))))
    have a2 := axis_box.mp (axis_mem h2 t2 (by
      rw [hτ]; exact max_le u2' (max_le p12 (max_le v2 p32))))
    have a3 := axis_box.mp (axis_mem h3 t3 (by
      rw [hτ]; exact max_le u3' (max_le p13 (max_le p23 v3))))
    refine ⟨A + ((τ + 1) / 2) • (B - A), ⟨_, ?_, ?_, rfl⟩, a1.1, a1.2, a2.1, a2.2, a3.1, a3.2⟩
    · linarith
    · linarith
  · rintro ⟨P, ⟨t, h0, h1, rfl⟩, a1, a2, a3, a4, a5, a6⟩
    have ht : t = ((2 * t - 1) + 1) / 2 := by ring
    have q1 := axis_box.mpr (by rw [← ht]; exact ⟨a1, a2⟩ :
      b.lo.x ≤ A.x + ((2 * t - 1) + 1) / 2 * (B.x - A.x) ∧
        A.x + ((2 * t - 1) + 1) / 2 * (B.x - A.x) ≤ b.hi.x)
    have q2 := axis_box.mpr (by rw [← ht]; exact ⟨a3, a4⟩ :
      b.lo.y ≤ A.y + ((2 * t - 1) + 1) / 2 * (B.y - A.y) ∧
        A.y + ((2 * t - 1) + 1) / 2 * (B.y - A.y) ≤ b.hi.y)
    have q3 := axis_box.mpr (by rw [← ht]; exact ⟨a5, a6⟩ :
      b.lo.z ≤ A.z + ((2 * t - 1) + 1) / 2 * (B.z - A.z) ∧
        A.z + ((2 * t - 1) + 1) / 2 * (B.z - A.z) ≤ b.hi.z)
    refine ⟨unit_of_mem q1 (by linarith) (by linarith), unit_of_mem q2 (by linarith) (by linarith),
      unit_of_mem q3 (by linarith) (by linarith), pair_of_mem q2 q3, ?_, pair_of_mem q1 q2⟩
    have := pair_of_mem q3 q1
    linarith

/-- C12, in space, for a non negative epsilon: no segment that meets the box is missed. -/
theorem C12_segment_space_partial (eps : K) (he : 0 ≤ eps) (A B : P3 K) (b : Box3 K)
    (hb : ValidBox3 b) (h : ∃ P, OnSegment3 A B P ∧ InBox3 b P) :
    segmentAabb3 eps A B b = true := by
  have h0 := (C12_segment_exact_space A B b hb).mpr h
  obtain ⟨hb1, hb2, hb3⟩ := hb
  have k1 : 0 ≤ (b.hi.x - b.lo.x) * eps := mul_nonneg (sub_nonneg.mpr hb1) he
  have k2 : 0 ≤ (b.hi.y - b.lo.y) * eps := mul_nonneg (sub_nonneg.mpr hb2) he
  have k3 : 0 ≤ (b.hi.z - b.lo.z) * eps := mul_nonneg (sub_nonneg.mpr hb3) he
  unfold segmentAabb3 at h0 ⊢
  simp only [P3.add_x, P3.add_y, P3.add_z, P3.sub_x, P3.sub_y, P3.sub_z, add_zero, gt_iff_lt]
    at h0 ⊢
  split_ifs at h0 with h1 h2 h3 h4 h5 h6
  rw [if_neg h1, if_neg h2, if_neg h3, if_neg, if_neg, if_neg]
  · push Not at h6 ⊢; linarith
  · push Not at h5 ⊢; linarith
  · push Not at h4 ⊢; linarith

example : segmentAabb3 0 (⟨-1, -1, 2⟩ : P3 ℚ) ⟨2, 2, -1⟩ ⟨⟨0, 0, 0⟩, ⟨1, 1, 1⟩⟩ = true ∧
    segmentAabb3 0 (⟨3, 0, 0⟩ : P3 ℚ) ⟨0, 3, 0⟩ ⟨⟨0, 0, 0⟩, ⟨1, 1, 1⟩⟩ = false := by
  decide +kernel

/-- C12: `ray_aabb_intersection` for a non null direction. It misses exactly when ray and box are
disjoint; on a hit `tmin` is the least parameter at which the ray is in the box, the flag tells
whether the origin is in the box, and the point is the entry point, or, for an origin inside, the
point at the greatest parameter. -/
theorem C12_ray (p d : P2 K) (b : Box K) (hb : ValidBox b) (hd : d ≠ 0) :
    ∃ r, rayAabb Cmp.direct p d b = .ok r ∧
      (r = none ↔ ¬ ∃ t : K, 0 ≤ t ∧ InBox b (p + t • d)) ∧
      ∀ h, r = some h →
        (0 ≤ h.tmin ∧ InBox b (p + h.tmin • d)) ∧
        (∀ t : K, 0 ≤ t → InBox b (p + t • d) → h.tmin ≤ t) ∧
        (h.inside = true ↔ InBox b p) ∧
        (¬ InBox b p → h.q = p + h.tmin • d) ∧
        (InBox b p → ∃ te : K, 0 ≤ te ∧ h.q = p + te • d ∧ InBox b h.q ∧
          ∀ t : K, 0 ≤ t → InBox b (p + t • d) → t ≤ te) := by
  obtain ⟨hb1, hb2⟩ := hb
  have hin : ∀ t : K, InBox b (p + t • d) ↔ (b.lo.x ≤ p.x + t * d.x ∧ p.x + t * d.x ≤ b.hi.x) ∧
      b.lo.y ≤ p.y + t * d.y ∧ p.y + t * d.y ≤ b.hi.y := by
    intro t; unfold InBox; simp [and_assoc]
  have h0 : ∀ t, (⟨0, none⟩ : Slab K).mem t ↔ 0 ≤ t := by intro t; simp [Slab.mem]
  obtain ⟨r1, e1, n1, s1⟩ := slabStep_spec (p := p.x) (d := d.x) hb1 ⟨0, none⟩ (by simp [Slab.ok])
  cases r1 with
  | none =>
    refine ⟨none, by simp [rayAabb, e1], ?_, by simp⟩
    simp only [true_iff]
    rintro ⟨t, ht, hbx⟩
    exact n1 rfl t ((h0 t).mpr ht) ((hin t).mp hbx).1
  | some u =>
    obtain ⟨ok1, m1, t1, _⟩ := s1 u rfl
    obtain ⟨r2, e2, n2, s2⟩ := slabStep_spec (p := p.y) (d := d.y) hb2 u ok1
    cases r2 with
    | none =>
      refine ⟨none, by simp [rayAabb, e1, e2], ?_, by simp⟩
      simp only [true_iff]
      rintro ⟨t, ht, hbx⟩
      exact n2 rfl t ((m1 t).mpr ⟨(h0 t).mpr ht, ((hin t).mp hbx).1⟩) ((hin t).mp hbx).2
    | some w =>
      obtain ⟨ok2, m2, t2, t12⟩ := s2 w rfl
      have hm : ∀ t, w.mem t ↔ 0 ≤ t ∧ InBox b (p + t • d) := by
        intro t
        rw [m2, m1, h0, hin]; tauto
      have hsome : w.tmax.isSome := by
        rcases (P2.ne_zero_iff d).mp hd with h | h
        · exact t12 (t1 h)
        · exact t2 h
      obtain ⟨te, hte⟩ := Option.isSome_iff_exists.mp hsome
      have hmin : w.mem w.tmin := ⟨le_rfl, fun m hm => ok2 m hm⟩
      have hmax : w.mem te := ⟨ok2 te hte, fun m hm => by
        rw [hte] at hm; simp only [Option.some.injEq] at hm; exact hm.le⟩
      have hleast : ∀ t : K, 0 ≤ t → InBox b (p + t • d) → w.tmin ≤ t :=
        fun t h1 h2 => ((hm t).mpr ⟨h1, h2⟩).1
      have hgreat : ∀ t : K, 0 ≤ t → InBox b (p + t • d) → t ≤ te :=
        fun t h1 h2 => ((hm t).mpr ⟨h1, h2⟩).2 te hte
      have hi := intersectsPoint_iff b p
      by_cases hp : InBox b p
      · have hi' := hi.mpr hp
        refine ⟨some ⟨true, w.tmin, p + te • d⟩, by simp [rayAabb, e1, e2, hi', hte], ?_, ?_⟩
        · simp only [reduceCtorEq, false_iff, not_not]
          exact ⟨te, (hm te).mp hmax⟩
        · rintro h ⟨⟩
          refine ⟨(hm _).mp hmin, hleast, by simp [hp], fun h => absurd hp h, fun _ => ?_⟩
          exact ⟨te, ((hm te).mp hmax).1, rfl, ((hm te).mp hmax).2, hgreat⟩
      · have hi' : b.intersectsPoint Cmp.direct p = false := by
          rw [Bool.eq_false_iff]; exact fun h => hp (hi.mp h)
        refine ⟨some ⟨false, w.tmin, p + w.tmin • d⟩, by simp [rayAabb, e1, e2, hi'], ?_, ?_⟩
        · simp only [reduceCtorEq, false_iff, not_not]
          exact ⟨_, (hm _).mp hmin⟩
        · rintro h ⟨⟩
          exact ⟨(hm _).mp hmin, hleast, by simp [hp], fun _ => rfl, fun h => absurd h hp⟩

example : (⟨1, 1⟩ : P2 ℚ) ≠ 0 ∧ ValidBox (⟨⟨0, 0⟩, ⟨1, 1⟩⟩ : Box ℚ) ∧
    (match rayAabb Cmp.direct (⟨-1, -2⟩ : P2 ℚ) ⟨1, 1⟩ ⟨⟨0, 0⟩, ⟨1, 1⟩⟩ with
      | .ok (some h) => h.inside == false && h.tmin == 2 && h.q.x == 1 && h.q.y == 0
      | _ => false) = true := by
  refine ⟨by decide +kernel, by constructor <;> norm_num, by decide +kernel⟩

/-- C12: the overload with entry and exit. -/
theorem C12_ray_entry_exit (p d : P2 K) (b : Box K) (hb : ValidBox b) (hd : d ≠ 0) :
    ∃ r, rayAabb2 Cmp.direct p d b = .ok r ∧
      (r = none ↔ ¬ ∃ t : K, 0 ≤ t ∧ InBox b (p + t • d)) ∧
      ∀ h, r = some h →
        (h.inside = true ↔ InBox b p) ∧ h.q0 = p + h.tentrance • d ∧ h.q1 = p + h.texit • d ∧
        0 ≤ h.tentrance ∧ h.tentrance ≤ h.texit ∧
        ∀ t : K, (0 ≤ t ∧ InBox b (p + t • d)) ↔ (h.tentrance ≤ t ∧ t ≤ h.texit) := by
  obtain ⟨hb1, hb2⟩ := hb
  have hin : ∀ t : K, InBox b (p + t • d) ↔ (b.lo.x ≤ p.x + t * d.x ∧ p.x + t * d.x ≤ b.hi.x) ∧
      b.lo.y ≤ p.y + t * d.y ∧ p.y + t * d.y ≤ b.hi.y := by
    intro t; unfold InBox; simp [and_assoc]
  have h0 : ∀ t, (⟨0, none⟩ : Slab K).mem t ↔ 0 ≤ t := by intro t; simp [Slab.mem]
  obtain ⟨r1, e1, n1, s1⟩ := slabStep_spec (p := p.x) (d := d.x) hb1 ⟨0, none⟩ (by simp [Slab.ok])
  cases r1 with
  | none =>
    refine ⟨none, by simp [rayAabb2, e1], ?_, by simp⟩
    simp only [true_iff]
    rintro ⟨t, ht, hbx⟩
    exact n1 rfl t ((h0 t).mpr ht) ((hin t).mp hbx).1
  | some u =>
    obtain ⟨ok1, m1, t1, _⟩ := s1 u rfl
    obtain ⟨r2, e2, n2, s2⟩ := slabStep_spec (p := p.y) (d := d.y) hb2 u ok1
    cases r2 with
    | none =>
      refine ⟨none, by simp [rayAabb2, e1, e2], ?_, by simp⟩
      simp only [true_iff]
      rintro ⟨t, ht, hbx⟩
      exact n2 rfl t ((m1 t).mpr ⟨(h0 t).mpr ht, ((hin t).mp hbx).1⟩) ((hin t).mp hbx).2
    | some w =>
      obtain ⟨ok2, m2, t2, t12⟩ := s2 w rfl
      have hm : ∀ t, w.mem t ↔ 0 ≤ t ∧ InBox b (p + t • d) := by
        intro t
        rw [m2, m1, h0, hin]; tauto
      have hsome : w.tmax.isSome := by
        rcases (P2.ne_zero_iff d).mp hd with h | h
        · exact t12 (t1 h)
        · exact t2 h
      obtain ⟨te, hte⟩ := Option.isSome_iff_exists.mp hsome
      have hmin : w.mem w.tmin := ⟨le_rfl, fun m hm => ok2 m hm⟩
      have hi := intersectsPoint_iff b p
      refine ⟨some ⟨b.intersectsPoint Cmp.direct p, w.tmin, p + w.tmin • d, te, p + te • d⟩,
        by simp [rayAabb2, e1, e2, hte], ?_, ?_⟩
      · simp only [reduceCtorEq, false_iff, not_not]
        exact ⟨_, (hm _).mp hmin⟩
      · rintro h ⟨⟩
        refine ⟨hi, rfl, rfl, ((hm _).mp hmin).1, ok2 te hte, ?_⟩
        intro t
        rw [← hm]
        simp [Slab.mem, hte]

/-- C12: a null direction from inside the box makes the code compute with an infinite parameter. -/
theorem C12_ray_null_refuted :
    (match rayAabb Cmp.direct (⟨0, 0⟩ : P2 ℚ) ⟨0, 0⟩ ⟨⟨0, 0⟩, ⟨1, 1⟩⟩ with
      | .error .nan => true
      | _ => false) = true := by decide +kernel

end Geometrix
