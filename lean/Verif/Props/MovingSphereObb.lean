import Verif.Lemmas.MovingSphereObb
import Verif.Props.MovingSphere

/-!
# C106: a moving sphere against an oriented box
-/

set_option linter.unusedSectionVars false

namespace Geometrix

open Spec

/-- C106: a moving disc and an oriented box: the function reports that they meet exactly if they do, with the first time
at which they do, and a common point of the box and the circle at that time. The full statement is for every start and
for axes of either handedness. Missing: a centre that is less than the radius away from the box along both axes at the
start, radius zero, boxes without interior, and a second axis that is to the right of the first. -/
theorem C106_box_partial (c v : P2 ℝ) (r : ℝ) (o : Obb ℝ) (ho : ValidObb o) (hp : 0 < cross o.u o.v)
    (hhu : 0 < o.hu) (hhv : 0 < o.hv) (hr : 0 < r) (hv : v ≠ 0)
    (hout : o.hu + r < |dot (c - o.center) o.u| ∨ o.hv + r < |dot (c - o.center) o.v|) :
    ∃ x, movingSphereObb Cmp.direct c r v o = .ok x ∧
      IsFirst (0 ≤ ·) (fun t => DiscMeets (InObb o) (c + t • v) r) (x.map Prod.fst) ∧
      ∀ t q, x = some (t, q) → InObb o q ∧ OnCircle (c + t • v) r q :=
  movingSphereObb_spec c v r o ho.1 (axis_left ho hp) hhu hhv hr hv hout

/-- A turned box and a disc that meets it. -/
example : ValidObb (⟨⟨0, 0⟩, ⟨3 / 5, 4 / 5⟩, ⟨-4 / 5, 3 / 5⟩, 5, 5⟩ : Obb ℝ) ∧
    0 < cross (⟨3 / 5, 4 / 5⟩ : P2 ℝ) ⟨-4 / 5, 3 / 5⟩ ∧
    5 + 1 < |dot ((⟨12, 16⟩ : P2 ℝ) - ⟨0, 0⟩) ⟨3 / 5, 4 / 5⟩| ∧
    DiscMeets (InObb ⟨⟨0, 0⟩, ⟨3 / 5, 4 / 5⟩, ⟨-4 / 5, 3 / 5⟩, 5, 5⟩)
      ((⟨12, 16⟩ : P2 ℝ) + (14 : ℝ) • ⟨-3 / 5, -4 / 5⟩) 1 := by
  refine ⟨by norm_num [ValidObb, dot], by norm_num [cross], by norm_num [dot, abs_of_pos], ⟨3, 4⟩,
    ⟨5, 0, by norm_num, by norm_num, by ext <;> norm_num⟩, by norm_num [InDisc]⟩

/-- C106: for every start, also one near the box, the answer is that of the function for boxes, C67, in the frame of the
oriented box. The frame is given by its coordinates: the point `p` of the plane
has the coordinates `dot (p - centre) u` and `dot (p - centre) v`. -/
theorem C106_frame (c v : P2 ℝ) (r : ℝ) (o : Obb ℝ) (ho : ValidObb o) (hp : 0 < cross o.u o.v) :
    let coord := fun p : P2 ℝ => (⟨dot p o.u, dot p o.v⟩ : P2 ℝ)
    movingSphereAabb Cmp.direct (o.center + coord (c - o.center)) r (coord v)
        ⟨o.center - ⟨o.hu, o.hv⟩, o.center + ⟨o.hu, o.hv⟩⟩ =
      (movingSphereObb Cmp.direct c r v o).map
        (Option.map fun x => (x.1, o.center + coord (x.2 - o.center))) := by
  intro coord
  have hv := axis_left ho hp
  have h1 : ∀ p, o.center + coord (p - o.center) = toFrame o p := by
    intro p; simp only [coord, hv]; ext <;> simp [toFrame, turnAbout, spin, dot, leftNormal] <;> ring
  have h2 : coord v = toFrameVec o v := by
    simp only [coord, hv]; ext <;> simp [toFrameVec, spin, dot, leftNormal] <;> ring
  simp only [h1, h2]
  exact movingSphereObb_frame ho.1 hv c v r

example : ValidObb (⟨⟨1, 2⟩, ⟨3 / 5, 4 / 5⟩, ⟨-4 / 5, 3 / 5⟩, 5, 5⟩ : Obb ℝ) ∧
    0 < cross (⟨3 / 5, 4 / 5⟩ : P2 ℝ) ⟨-4 / 5, 3 / 5⟩ := by
  norm_num [ValidObb, dot, cross]

/-- C106, disagreement: with the second axis to the right of the first the box is taken to be smaller by the radius
where it has to be taken larger: a disc that moves straight at a square is not reported to meet it. -/
theorem C106_axes_refuted : ∃ (c v : P2 ℝ) (r : ℝ) (o : Obb ℝ), ValidObb o ∧ 0 < o.hu ∧ 0 < o.hv ∧ 0 < r ∧ v ≠ 0 ∧
    o.hu + r < |dot (c - o.center) o.u| ∧ DiscMeets (InObb o) (c + (8 : ℝ) • v) r ∧
    movingSphereObb Cmp.direct c r v o = .ok none := by
  refine ⟨⟨-10, 3 / 2⟩, ⟨1, 0⟩, 1, ⟨⟨0, 0⟩, ⟨1, 0⟩, ⟨0, -1⟩, 2, 2⟩, by norm_num [ValidObb, dot], by norm_num, by norm_num,
    by norm_num, fun h => by have := congrArg P2.x h; norm_num at this, by norm_num [dot, abs_of_neg],
    ⟨⟨-2, 3 / 2⟩, ⟨-2, -3 / 2, by norm_num, by norm_num [abs_le], by ext <;> norm_num⟩, by norm_num [InDisc]⟩, ?_⟩
  unfold movingSphereObb
  dsimp only
  have e1 : rotatePointM (⟨-10, 3 / 2⟩ : P2 ℝ) (makeRotation ⟨1, 0⟩ ⟨1, 0⟩) ⟨0, 0⟩ = ⟨-10, 3 / 2⟩ := by
    ext <;> norm_num [rotatePointM, makeRotation, Mat2.mulVec, dot, cross]
  have e2 : (makeRotation (⟨1, 0⟩ : P2 ℝ) ⟨1, 0⟩).mulVec ⟨1, 0⟩ = ⟨1, 0⟩ := by
    ext <;> norm_num [makeRotation, Mat2.mulVec, dot, cross]
  have e3 : rotatePointM (obbCorner ⟨⟨0, 0⟩, ⟨1, 0⟩, ⟨0, -1⟩, 2, 2⟩ 0) (makeRotation (⟨1, 0⟩ : P2 ℝ) ⟨1, 0⟩) ⟨0, 0⟩ =
      ⟨-2, 2⟩ := by
    have : obbCorner ⟨⟨0, 0⟩, ⟨1, 0⟩, ⟨0, -1⟩, 2, 2⟩ 0 =
      (⟨0, 0⟩ : P2 ℝ) - (2 : ℝ) • (⟨1, 0⟩ : P2 ℝ) - (2 : ℝ) • (⟨0, -1⟩ : P2 ℝ) := rfl
    rw [this]
    ext <;> norm_num [rotatePointM, makeRotation, Mat2.mulVec, dot, cross]
  have e4 : rotatePointM (obbCorner ⟨⟨0, 0⟩, ⟨1, 0⟩, ⟨0, -1⟩, 2, 2⟩ 3) (makeRotation (⟨1, 0⟩ : P2 ℝ) ⟨1, 0⟩) ⟨0, 0⟩ =
      ⟨2, -2⟩ := by
    have : obbCorner ⟨⟨0, 0⟩, ⟨1, 0⟩, ⟨0, -1⟩, 2, 2⟩ 3 =
      (⟨0, 0⟩ : P2 ℝ) + (2 : ℝ) • (⟨1, 0⟩ : P2 ℝ) + (2 : ℝ) • (⟨0, -1⟩ : P2 ℝ) := rfl
    rw [this]
    ext <;> norm_num [rotatePointM, makeRotation, Mat2.mulVec, dot, cross]
  have hr : rayAabb Cmp.direct (⟨-10, 3 / 2⟩ : P2 ℝ) ⟨1, 0⟩
      ⟨(⟨-2, 2⟩ : P2 ℝ) - ⟨1, 1⟩, ⟨2, -2⟩ + ⟨1, 1⟩⟩ = .ok none := by
    norm_num [rayAabb, slabStep, Box.intersectsPoint, cdiv]
  rw [e1, e2, e3, e4, hr]

/-- C106, disagreement: a disc that does not meet the box for some time may be reported to meet it at the time zero, as
in C67. -/
theorem C106_apart_refuted : ∃ (c v : P2 ℝ) (r : ℝ) (o : Obb ℝ), ValidObb o ∧ 0 < cross o.u o.v ∧
    0 < o.hu ∧ 0 < o.hv ∧ 0 < r ∧ v ≠ 0 ∧
    (∀ t : ℝ, 0 ≤ t → t < 1 / 20 → ¬ DiscMeets (InObb o) (c + t • v) r) ∧
    ∃ q, movingSphereObb Cmp.direct c r v o = .ok (some (0, q)) := by
  obtain ⟨c, v, r, a, hx, hy, hr, hv, h1, q, h2⟩ := C67_apart_refuted
  have hw : dot (⟨1, 0⟩ : P2 ℝ) ⟨1, 0⟩ = 1 := by norm_num [dot]
  refine ⟨c, v, r, ⟨⟨(a.lo.x + a.hi.x) / 2, (a.lo.y + a.hi.y) / 2⟩, ⟨1, 0⟩, ⟨0, 1⟩, (a.hi.x - a.lo.x) / 2,
    (a.hi.y - a.lo.y) / 2⟩, ⟨by norm_num [dot], by norm_num [dot], by norm_num [dot], by dsimp only; linarith,
    by dsimp only; linarith⟩, by norm_num [cross], by dsimp only; linarith, by dsimp only; linarith, hr, hv, ?_, ?_⟩
  all_goals
    generalize ho : (⟨⟨(a.lo.x + a.hi.x) / 2, (a.lo.y + a.hi.y) / 2⟩, ⟨1, 0⟩, ⟨0, 1⟩, (a.hi.x - a.lo.x) / 2,
      (a.hi.y - a.lo.y) / 2⟩ : Obb ℝ) = o
    have hu : dot o.u o.u = 1 := by rw [← ho]; exact hw
    have hl : o.v = leftNormal o.u := by rw [← ho]; ext <;> norm_num [leftNormal]
    have hb : frameBox o = a := by
      rw [← ho]; unfold frameBox
      rw [show a = ⟨a.lo, a.hi⟩ from rfl, Box.mk.injEq]
      constructor <;> ext <;> simp <;> ring
    have hf : ∀ p, toFrame o p = p := fun p => by rw [← ho]; ext <;> simp [toFrame, turnAbout, spin]
    have hfv : ∀ p, toFrameVec o p = p := fun p => by rw [← ho]; ext <;> simp [toFrameVec, spin]
  · intro t t0 t1 hm
    refine h1 t t0 t1 ?_
    have := (discMeets_frame hu hl c v r t).2 hm
    rwa [hb, hf, hfv] at this
  · have := movingSphereObb_frame hu hl c v r
    rw [hb, hf, hfv, h2] at this
    cases hm : movingSphereObb Cmp.direct c r v o with
    | error e => rw [hm] at this; simp [Except.map] at this
    | ok y =>
      rw [hm] at this
      cases y with
      | none => simp [Except.map, moveHit] at this
      | some y =>
        simp only [Except.map, moveHit, Option.map_some, Except.ok.injEq, Option.some.injEq, Prod.mk.injEq] at this
        exact ⟨y.2, by rw [this.1]⟩

end Geometrix
