import Verif.Lemmas.RigidMotion

/-!
# Helper lemmas about a moving sphere and an oriented box
-/

set_option linter.unusedSectionVars false

namespace Geometrix

open Spec

/-- The box in the frame of the oriented box. -/
noncomputable def frameBox (o : Obb ℝ) : Box ℝ := ⟨o.center - ⟨o.hu, o.hv⟩, o.center + ⟨o.hu, o.hv⟩⟩

/-- A point in the frame of the oriented box. -/
noncomputable def toFrame (o : Obb ℝ) (p : P2 ℝ) : P2 ℝ := turnAbout o.u.x (-o.u.y) o.center p

/-- A vector in the frame of the oriented box. -/
noncomputable def toFrameVec (o : Obb ℝ) (p : P2 ℝ) : P2 ℝ := spin o.u.x (-o.u.y) p

theorem frame_rot (o : Obb ℝ) (p : P2 ℝ) : rotatePointM p (makeRotation o.u ⟨1, 0⟩) o.center = toFrame o p := by
  ext <;> simp [rotatePointM, makeRotation, Mat2.mulVec, dot, cross, toFrame, turnAbout, spin]

theorem frame_rotVec (o : Obb ℝ) (p : P2 ℝ) : (makeRotation o.u ⟨1, 0⟩).mulVec p = toFrameVec o p := by
  ext <;> simp [makeRotation, Mat2.mulVec, dot, cross, toFrameVec, spin]

theorem frame_unit {o : Obb ℝ} (hu : dot o.u o.u = 1) : o.u.x * o.u.x + -o.u.y * -o.u.y = 1 := by
  simp only [dot] at hu; linarith

theorem toFrame_corner {o : Obb ℝ} (hu : dot o.u o.u = 1) (hv : o.v = leftNormal o.u) (n : Nat) :
    toFrame o (obbCorner o n) = boxCorner (frameBox o) n := by
  have h := frame_unit hu
  unfold obbCorner boxCorner toFrame frameBox
  by_cases h1 : n &&& 1 = 0 <;> by_cases h2 : n &&& 2 = 0 <;> simp only [h1, h2, if_true, if_false, hv] <;>
    ext <;> simp [turnAbout, spin, leftNormal]
  · linear_combination (-o.hu) * h
  · linear_combination (-o.hv) * h
  · linear_combination (-o.hu) * h
  · linear_combination (o.hv) * h
  · linear_combination (o.hu) * h
  · linear_combination (-o.hv) * h
  · linear_combination (o.hu) * h
  · linear_combination (o.hv) * h

/-- The function for an oriented box with axes turned to the left is the function for a box, in the frame. -/
theorem movingSphereObb_frame {o : Obb ℝ} (hu : dot o.u o.u = 1) (hv : o.v = leftNormal o.u) (c vel : P2 ℝ) (r : ℝ) :
    movingSphereAabb Cmp.direct (toFrame o c) r (toFrameVec o vel) (frameBox o) =
      (movingSphereObb Cmp.direct c r vel o).map (moveHit o.u.x (-o.u.y) o.center) := by
  have h := frame_unit hu
  have hlo : toFrame o (obbCorner o 0) = (frameBox o).lo := toFrame_corner hu hv 0
  have hhi : toFrame o (obbCorner o 3) = (frameBox o).hi := toFrame_corner hu hv 3
  unfold movingSphereObb movingSphereAabb
  simp only [frame_rot, frame_rotVec, hlo, hhi]
  cases rayAabb Cmp.direct (toFrame o c) (toFrameVec o vel) ⟨(frameBox o).lo - ⟨r, r⟩, (frameBox o).hi + ⟨r, r⟩⟩ with
  | error e => rfl
  | ok z =>
    cases z with
    | none => rfl
    | some z =>
      simp only [← toFrame_corner hu hv]
      generalize (if z.q.x < (frameBox o).lo.x then 1 else 0) + (if z.q.y < (frameBox o).lo.y then 2 else 0) = u
      generalize (if z.q.x > (frameBox o).hi.x then 1 else 0) + (if z.q.y > (frameBox o).hi.y then 2 else 0) = w
      have seg : ∀ A B, movingSphereSegment Cmp.direct (toFrame o c) r (toFrameVec o vel) (toFrame o A) (toFrame o B) =
          (movingSphereSegment Cmp.direct c r vel A B).map
            fun x => (x.1, moveHit o.u.x (-o.u.y) o.center x.2) := fun A B => spin_segment h c vel A B r
      have mv : toFrame o c + z.tmin • toFrameVec o vel = toFrame o (c + z.tmin • vel) := by
        unfold toFrame toFrameVec
        rw [turnAbout_add, spin_smul]
      have cl : ∀ p A B, pointSegClosestPts (toFrame o p) (toFrame o A) (toFrame o B) =
          (pointSegClosestPts p A B).map (toFrame o) := fun p A B => spin_closest h p A B
      have nm : ∀ p q, normalize2 (toFrame o p - toFrame o q) = (normalize2 (p - q)).map (toFrameVec o) := by
        intro p q
        unfold toFrame toFrameVec
        rw [turnAbout_sub, spin_normalize h]
      split_ifs
      · rw [seg, seg]
        cases movingSphereSegment Cmp.direct c r vel (obbCorner o w) (obbCorner o (w ^^^ 1)) with
        | error e => rfl
        | ok x =>
          simp only [Except.map]
          cases movingSphereSegment Cmp.direct c r vel (obbCorner o w) (obbCorner o (w ^^^ 2)) with
          | error e => rfl
          | ok y =>
            obtain ⟨-, x⟩ := x
            obtain ⟨-, y⟩ := y
            cases x with
            | none => rfl
            | some x =>
              cases y with
              | none => rfl
              | some y =>
                simp only [moveHit, Option.map_some]
                split_ifs <;> rfl
      · rw [mv, cl]
        cases pointSegClosestPts (c + z.tmin • vel) (obbCorner o (u ^^^ 3)) (obbCorner o w) with
        | error e => rfl
        | ok q =>
          simp only [Except.map]
          rw [nm]
          cases normalize2 (q - (c + z.tmin • vel)) with
          | error e => rfl
          | ok n =>
            simp only [Except.map, moveHit, Option.map_some, Except.ok.injEq, Option.some.injEq, Prod.mk.injEq, true_and]
            unfold toFrame toFrameVec
            rw [turnAbout_add _ (r • n), spin_smul r]

/-- Points of the oriented box in the frame. -/
theorem inObb_frame {o : Obb ℝ} (hu : dot o.u o.u = 1) (hv : o.v = leftNormal o.u) (p : P2 ℝ) :
    InBox (frameBox o) (toFrame o p) ↔ InObb o p := by
  have h := frame_unit hu
  unfold InObb InBox frameBox toFrame
  simp only [turnAbout, spin, P2.sub_x, P2.sub_y, P2.add_x, P2.add_y, hv]
  constructor
  · rintro ⟨h1, h2, h3, h4⟩
    refine ⟨o.u.x * (p.x - o.center.x) + o.u.y * (p.y - o.center.y),
      -o.u.y * (p.x - o.center.x) + o.u.x * (p.y - o.center.y), ?_, ?_, ?_⟩
    · rw [abs_le]; constructor <;> linarith
    · rw [abs_le]; constructor <;> linarith
    · ext <;> simp [leftNormal]
      · linear_combination (-(p.x - o.center.x)) * h
      · linear_combination (-(p.y - o.center.y)) * h
  · rintro ⟨s, t, h1, h2, rfl⟩
    rw [abs_le] at h1 h2
    have e1 : o.u.x * ((o.center + s • o.u + t • leftNormal o.u).x - o.center.x) -
        -o.u.y * ((o.center + s • o.u + t • leftNormal o.u).y - o.center.y) = s := by
      simp [leftNormal]; linear_combination s * h
    have e2 : -o.u.y * ((o.center + s • o.u + t • leftNormal o.u).x - o.center.x) +
        o.u.x * ((o.center + s • o.u + t • leftNormal o.u).y - o.center.y) = t := by
      simp [leftNormal]; linear_combination t * h
    rw [e1, e2]
    refine ⟨?_, ?_, ?_, ?_⟩ <;> linarith [h1.1, h1.2, h2.1, h2.2]

theorem sqDist_frame {o : Obb ℝ} (hu : dot o.u o.u = 1) (p q : P2 ℝ) :
    sqDist (toFrame o p) (toFrame o q) = sqDist p q := by
  have h := frame_unit hu
  simp only [sqDist, toFrame, turnAbout, spin, P2.sub_x, P2.sub_y, P2.add_x, P2.add_y]
  linear_combination ((p.x - q.x) ^ 2 + (p.y - q.y) ^ 2) * h

theorem toFrame_back {o : Obb ℝ} (hu : dot o.u o.u = 1) (p : P2 ℝ) : ∃ q, toFrame o q = p := by
  have h := frame_unit hu
  exact ⟨turnAbout o.u.x o.u.y o.center p,
    turnAbout_back (k := o.u.x) (s := o.u.y) (o := o.center) (by linarith) p⟩

theorem discMeets_frame {o : Obb ℝ} (hu : dot o.u o.u = 1) (hv : o.v = leftNormal o.u) (c vel : P2 ℝ) (r t : ℝ) :
    DiscMeets (InBox (frameBox o)) (toFrame o c + t • toFrameVec o vel) r ↔ DiscMeets (InObb o) (c + t • vel) r := by
  have e : toFrame o c + t • toFrameVec o vel = toFrame o (c + t • vel) := by
    unfold toFrame toFrameVec
    rw [turnAbout_add, spin_smul]
  rw [e]
  constructor
  · rintro ⟨P, h1, h2⟩
    obtain ⟨Q, rfl⟩ := toFrame_back hu P
    refine ⟨Q, (inObb_frame hu hv Q).1 h1, ?_⟩
    change sqDist _ _ ≤ _ at h2
    rw [sqDist_frame hu] at h2
    exact h2
  · rintro ⟨P, h1, h2⟩
    refine ⟨toFrame o P, (inObb_frame hu hv P).2 h1, ?_⟩
    change sqDist _ _ ≤ _
    rw [sqDist_frame hu]
    exact h2

/-- The second of two orthogonal unit vectors. -/
theorem axis_left {o : Obb ℝ} (h : ValidObb o) (hp : 0 < cross o.u o.v) : o.v = leftNormal o.u := by
  obtain ⟨h1, h2, h3, -, -⟩ := h
  simp only [dot, cross] at h1 h2 h3 hp
  have h4 : o.u.x * o.v.y - o.u.y * o.v.x = 1 := by nlinarith
  ext <;> simp only [leftNormal]
  · linear_combination (-o.v.x) * h1 + o.u.x * h3 - o.u.y * h4
  · linear_combination (-o.v.y) * h1 + o.u.y * h3 + o.u.x * h4

/-- A moving disc that starts far from an oriented box. -/
theorem movingSphereObb_spec (c vel : P2 ℝ) (r : ℝ) (o : Obb ℝ) (hu : dot o.u o.u = 1) (hv : o.v = leftNormal o.u)
    (hhu : 0 < o.hu) (hhv : 0 < o.hv) (hr : 0 < r) (hvel : vel ≠ 0)
    (hout : o.hu + r < |dot (c - o.center) o.u| ∨ o.hv + r < |dot (c - o.center) o.v|) :
    ∃ x, movingSphereObb Cmp.direct c r vel o = .ok x ∧
      IsFirst (0 ≤ ·) (fun t => DiscMeets (InObb o) (c + t • vel) r) (x.map Prod.fst) ∧
      ∀ t q, x = some (t, q) → InObb o q ∧ OnCircle (c + t • vel) r q := by
  have h := frame_unit hu
  have hc : toFrame o c = o.center + ⟨dot (c - o.center) o.u, dot (c - o.center) o.v⟩ := by
    rw [hv]; ext <;> simp [toFrame, turnAbout, spin, dot, leftNormal] <;> ring
  obtain ⟨x, hx, hfirst, hq⟩ := movingSphereAabb_spec (toFrame o c) (toFrameVec o vel) r (frameBox o)
    (by simp [frameBox]; linarith) (by simp [frameBox]; linarith) hr
    (fun e => hvel (by
      have : toFrameVec o vel = spin o.u.x (-o.u.y) 0 := by rw [e]; ext <;> simp [spin]
      exact (spin_inj h).1 this))
    (by
      rintro ⟨h1, h2, h3, h4⟩
      simp only [frameBox, P2.sub_x, P2.sub_y] at h1 h3
      rw [hc] at h1 h2 h3 h4
      simp only [frameBox, P2.add_x, P2.add_y] at h1 h2 h3 h4
      rcases hout with k | k
      · rcases lt_abs.1 k with k | k <;> linarith
      · rcases lt_abs.1 k with k | k <;> linarith)
  rw [movingSphereObb_frame hu hv] at hx
  cases hy : movingSphereObb Cmp.direct c r vel o with
  | error e => rw [hy] at hx; simp [Except.map] at hx
  | ok y =>
    rw [hy] at hx
    simp only [Except.map, Except.ok.injEq] at hx
    subst hx
    refine ⟨y, rfl, ?_, ?_⟩
    · have : (moveHit o.u.x (-o.u.y) o.center y).map Prod.fst = y.map Prod.fst := by cases y <;> rfl
      rw [this] at hfirst
      simpa only [discMeets_frame hu hv] using hfirst
    · rintro t q rfl
      obtain ⟨k1, k2⟩ := hq t (toFrame o q) rfl
      refine ⟨(inObb_frame hu hv q).1 k1, ?_⟩
      have e : toFrame o c + t • toFrameVec o vel = toFrame o (c + t • vel) := by
        unfold toFrame toFrameVec
        rw [turnAbout_add, spin_smul]
      rw [e] at k2
      change sqDist _ _ = _ at k2
      rw [sqDist_frame hu] at k2
      exact k2

end Geometrix
