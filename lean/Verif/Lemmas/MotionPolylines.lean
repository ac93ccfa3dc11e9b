import Verif.Lemmas.MotionSegments
import Verif.Model.RemoveCollinear
import Verif.Model.RamerDouglasPeucker
import Verif.Model.PolylineSide
import Verif.Model.PointSequence

/-!
# Helper lemmas: polylines under affine maps and rotations
-/

set_option linter.unusedSectionVars false

namespace Geometrix

open Spec

variable {K : Type*} [Field K] [LinearOrder K] [IsStrictOrderedRing K]

/-- The map keeps which points are on a line, and which are equal. -/
structure KeepsLines (f : P2 K → P2 K) : Prop where
  collinear : ∀ A B C, isCollinear Cmp.direct (f A) (f B) (f C) = isCollinear Cmp.direct A B C
  apart : ∀ A B, (Cmp.direct : Cmp K).gt (distSq (f A) (f B)) 0 = (Cmp.direct : Cmp K).gt (distSq A B) 0

theorem distSq_pos_iff (A B : P2 K) : 0 < distSq A B ↔ A ≠ B := by
  have h0 : distSq A B = (B.x - A.x) ^ 2 + (B.y - A.y) ^ 2 := by simp only [distSq, normSq, dot, P2.sub_x, P2.sub_y]; ring
  rw [h0]
  constructor
  · rintro h rfl; simp at h
  · intro h
    by_cases hx : B.x = A.x
    · have hy : B.y - A.y ≠ 0 := fun k => h (P2.ext hx.symm (sub_eq_zero.1 k).symm)
      have := pow_pos (abs_pos.2 hy) 2
      rw [sq_abs] at this
      have := sq_nonneg (B.x - A.x)
      linarith
    · have := pow_pos (abs_pos.2 (sub_ne_zero.2 hx)) 2
      rw [sq_abs] at this
      have := sq_nonneg (B.y - A.y)
      linarith

theorem keepsLines_affine {a b c d e g : K} (h : a * d - b * c ≠ 0) : KeepsLines (affineMap a b c d e g) := by
  refine ⟨isCollinear_affine h, fun A B => ?_⟩
  rw [Bool.eq_iff_iff, direct_gt, direct_gt, distSq_pos_iff, distSq_pos_iff, (affine_injective h).ne_iff]

section clean

variable {f : P2 K → P2 K} (hf : KeepsLines f)
include hf

theorem removeCollinearLoop_map (l : List (P2 K)) : ∀ a b,
    removeCollinearLoop Cmp.direct (f a) (f b) (l.map f) = (removeCollinearLoop Cmp.direct a b l).map f := by
  induction l with
  | nil => intro a b; rfl
  | cons c l ih =>
    intro a b
    simp only [List.map_cons, removeCollinearLoop, hf.collinear]
    split_ifs
    · rw [List.map_cons, ih]
    · rw [ih]

theorem removeCollinearPolyline_map (l : List (P2 K)) :
    removeCollinearPolyline Cmp.direct (l.map f) = (removeCollinearPolyline Cmp.direct l).map f := by
  match l with
  | [] => rfl
  | [_] => rfl
  | [_, _] => rfl
  | a :: b :: c :: l => exact removeCollinearLoop_map hf (c :: l) a b

theorem removeCollinearPolygonLoop_map (o : P2 K) (l : List (P2 K)) : ∀ a b,
    removeCollinearPolygonLoop Cmp.direct (f o) (f a) (f b) (l.map f) = (removeCollinearPolygonLoop Cmp.direct o a b l).map f := by
  induction l with
  | nil => intro a b; rfl
  | cons c l ih =>
    intro a b
    simp only [List.map_cons, removeCollinearPolygonLoop, hf.collinear, List.isEmpty_map]
    split_ifs
    · rw [List.map_cons, ih]
    · rw [ih]
    · rw [ih]

theorem removeCollinearPolygon_map (l : List (P2 K)) :
    removeCollinearPolygon Cmp.direct (l.map f) = (removeCollinearPolygon Cmp.direct l).map f := by
  match l with
  | [] => rfl
  | [_] => rfl
  | [_, _] => rfl
  | [_, _, _] => rfl
  | a :: b :: c :: d :: l => exact removeCollinearPolygonLoop_map hf a (c :: d :: l) a b

theorem identifyCollinearLoop_map (o : P2 K) (l : List (P2 K)) : ∀ i a b,
    identifyCollinearLoop Cmp.direct (f o) i (f a) (f b) (l.map f) = identifyCollinearLoop Cmp.direct o i a b l := by
  induction l with
  | nil => intro i a b; rfl
  | cons c l ih =>
    intro i a b
    simp only [List.map_cons, identifyCollinearLoop, hf.collinear, List.isEmpty_map, ih]

theorem identifyCollinear_map (l : List (P2 K)) : identifyCollinear Cmp.direct (l.map f) = identifyCollinear Cmp.direct l := by
  match l with
  | [] => rfl
  | [_] => rfl
  | [_, _] => rfl
  | [_, _, _] => rfl
  | a :: b :: c :: d :: l => exact identifyCollinearLoop_map hf a (c :: d :: l) 2 a b

theorem coalesceLoop_map (l : List (P2 K)) : ∀ a, coalesceLoop Cmp.direct (f a) (l.map f) = (coalesceLoop Cmp.direct a l).map f := by
  induction l with
  | nil => intro a; rfl
  | cons c l ih =>
    intro a
    simp only [List.map_cons, coalesceLoop, hf.apart]
    split_ifs
    · rw [List.map_cons, ih]
    · rw [ih]

theorem coalescePolyline_map (l : List (P2 K)) : coalescePolyline Cmp.direct (l.map f) = (coalescePolyline Cmp.direct l).map f := by
  match l with
  | [] => rfl
  | [_] => rfl
  | [_, _] => rfl
  | a :: b :: c :: l => exact coalesceLoop_map hf (b :: c :: l) a

theorem coalescePolygonLoop_map (o : P2 K) (l : List (P2 K)) : ∀ a,
    coalescePolygonLoop Cmp.direct (f o) (f a) (l.map f) = (coalescePolygonLoop Cmp.direct o a l).map f := by
  induction l with
  | nil => intro a; rfl
  | cons c l ih =>
    intro a
    simp only [List.map_cons, coalescePolygonLoop, hf.apart, List.isEmpty_map]
    split_ifs
    · rw [List.map_cons, ih]
    · rw [ih]
    · rw [ih]

theorem coalescePolygon_map (l : List (P2 K)) : coalescePolygon Cmp.direct (l.map f) = (coalescePolygon Cmp.direct l).map f := by
  match l with
  | [] => rfl
  | [_] => rfl
  | [_, _] => rfl
  | [_, _, _] => rfl
  | a :: b :: c :: d :: l => exact coalescePolygonLoop_map hf a (b :: c :: d :: l) a

theorem identifyAdjacentLoop_map (o : P2 K) (l : List (P2 K)) : ∀ i a,
    identifyAdjacentLoop Cmp.direct (f o) i (f a) (l.map f) = identifyAdjacentLoop Cmp.direct o i a l := by
  induction l with
  | nil => intro i a; rfl
  | cons c l ih =>
    intro i a
    simp only [List.map_cons, identifyAdjacentLoop, hf.apart, List.isEmpty_map, ih]

theorem identifyAdjacent_map (l : List (P2 K)) : identifyAdjacent Cmp.direct (l.map f) = identifyAdjacent Cmp.direct l := by
  match l with
  | [] => rfl
  | [_] => rfl
  | [_, _] => rfl
  | [_, _, _] => rfl
  | a :: b :: c :: d :: l => exact identifyAdjacentLoop_map hf a (b :: c :: d :: l) 1 a

end clean

/-! ### Simplification -/

/-- The two lines have the same distance from every point and its image. -/
def SameDist (f : P2 ℝ → P2 ℝ) (l l' : Line2) : Prop := ∀ p, pointLineDist (f p) l' = pointLineDist p l

theorem rdpScan_map {f : P2 ℝ → P2 ℝ} {l l' : Line2} (h : SameDist f l l') (poly : List (P2 ℝ)) (is : List Nat) : ∀ s,
    rdpScan (poly.map f) l' is s = rdpScan poly l is s := by
  induction is with
  | nil => intro s; rfl
  | cons i is ih =>
    intro s
    simp only [rdpScan, List.getElem?_map]
    cases poly[i]? with
    | none => rfl
    | some p => simp only [Option.map_some, h p, ih]

theorem rotate_normSq (v1 v2 o : P2 K) (h1 : v1.x ^ 2 + v1.y ^ 2 = 1) (h2 : v2.x ^ 2 + v2.y ^ 2 = 1) (p q : P2 K) :
    normSq (rotatePoint p v1 v2 o - rotatePoint q v1 v2 o) = normSq (p - q) := rotate_dot v1 v2 o h1 h2 p q p q

/-- Rotating the two points turns the line. -/
theorem makeLine_rotate (v1 v2 o : P2 ℝ) (h1 : v1.x ^ 2 + v1.y ^ 2 = 1) (h2 : v2.x ^ 2 + v2.y ^ 2 = 1) (a b : P2 ℝ) :
    (∃ l l', makeLine a b = .ok l ∧ makeLine (rotatePoint a v1 v2 o) (rotatePoint b v1 v2 o) = .ok l' ∧ SameDist (fun p => rotatePoint p v1 v2 o) l l') ∨
    (makeLine a b = .error .assertFailed ∧ makeLine (rotatePoint a v1 v2 o) (rotatePoint b v1 v2 o) = .error .assertFailed) := by
  unfold makeLine makeLineV normalize2
  rw [rotate_normSq v1 v2 o h1 h2]
  split_ifs with h
  · exact Or.inr ⟨rfl, rfl⟩
  · left
    refine ⟨_, _, rfl, rfl, fun p => ?_⟩
    unfold pointLineDist signedPointLineDist
    congr 1
    have hc := rotate_area2 v1 v2 o h1 h2 a b p
    generalize 1 / √(normSq (b - a)) = k
    simp only [leftNormal, dot, P2.smul_x, P2.smul_y]
    simp only [cross] at hc
    linear_combination k * hc

theorem rdpFar_rotate (v1 v2 o : P2 ℝ) (h1 : v1.x ^ 2 + v1.y ^ 2 = 1) (h2 : v2.x ^ 2 + v2.y ^ 2 = 1) (poly : List (P2 ℝ)) (start stop : Nat) :
    rdpFar (rotatePoints poly v1 v2 o) start stop = rdpFar poly start stop := by
  unfold rdpFar
  rw [rotatePoints_map, List.getElem?_map, List.getElem?_map]
  split_ifs
  · cases poly[start]? with
    | none => rfl
    | some a =>
      cases poly[stop - 1]? with
      | none => rfl
      | some b =>
        simp only [Option.map_some]
        rcases makeLine_rotate v1 v2 o h1 h2 a b with ⟨l, l', e1, e2, e3⟩ | ⟨e1, e2⟩
        · rw [e1, e2]; exact rdpScan_map e3 poly _ _
        · rw [e1, e2]
  · rfl

theorem rdp_rotate (v1 v2 o : P2 ℝ) (h1 : v1.x ^ 2 + v1.y ^ 2 = 1) (h2 : v2.x ^ 2 + v2.y ^ 2 = 1) (checked : Bool) (poly : List (P2 ℝ)) (eps : ℝ)
    (fuel : Nat) : ∀ start stop, rdp checked (rotatePoints poly v1 v2 o) eps fuel start stop =
      (rdp checked poly eps fuel start stop).map (fun l => rotatePoints l v1 v2 o) := by
  induction fuel with
  | zero => intro start stop; rfl
  | succ fuel ih =>
    intro start stop
    simp only [rdp, rdpFar_rotate v1 v2 o h1 h2, ih]
    rcases rdpFar poly start stop with e | ⟨i, d⟩
    · rfl
    · simp only
      split_ifs
      · rcases rdp checked poly eps fuel start i with e | l
        · rfl
        · rcases rdp checked poly eps fuel i stop with e | r
          · rfl
          · simp [Except.map, rotatePoints_map, List.map_dropLast]
      · rfl
      · rw [rotatePoints_map, List.getElem?_map, List.getElem?_map]
        cases poly[start]? with
        | none => rfl
        | some a =>
          cases poly[stop - 1]? with
          | none => rfl
          | some b => rfl

/-! ### Sides -/

theorem rotate_cross (v1 v2 o : P2 K) (h1 : v1.x ^ 2 + v1.y ^ 2 = 1) (h2 : v2.x ^ 2 + v2.y ^ 2 = 1) (p q r s : P2 K) :
    cross (rotatePoint p v1 v2 o - rotatePoint q v1 v2 o) (rotatePoint r v1 v2 o - rotatePoint s v1 v2 o) = cross (p - q) (r - s) := by
  have hd := rotate_det h1 h2
  simp only [rotatePoint_affine]
  generalize dot v1 v2 = m at *
  generalize cross v1 v2 = n at *
  have : cross (p - q) (r - s) = (m * m - -n * n) * cross (p - q) (r - s) := by rw [hd, one_mul]
  rw [this]
  simp only [cross, affineMap, P2.sub_x, P2.sub_y]
  ring

theorem isVectorBetween_rotate (v1 v2 o : P2 K) (h1 : v1.x ^ 2 + v1.y ^ 2 = 1) (h2 : v2.x ^ 2 + v2.y ^ 2 = 1) (a a' b b' c c' : P2 K) (inc : Bool) :
    isVectorBetween Cmp.direct (rotatePoint a v1 v2 o - rotatePoint a' v1 v2 o) (rotatePoint b v1 v2 o - rotatePoint b' v1 v2 o)
      (rotatePoint c v1 v2 o - rotatePoint c' v1 v2 o) inc = isVectorBetween Cmp.direct (a - a') (b - b') (c - c') inc := by
  unfold isVectorBetween
  simp only [rotate_cross v1 v2 o h1 h2, rotate_dot v1 v2 o h1 h2]

theorem lengthLoop_rotate (v1 v2 o : P2 ℝ) (h1 : v1.x ^ 2 + v1.y ^ 2 = 1) (h2 : v2.x ^ 2 + v2.y ^ 2 = 1) : ∀ (l : List (P2 ℝ)) (s : ℝ),
    lengthLoop s (rotatePoints l v1 v2 o) = lengthLoop s l
  | [], _ => rfl
  | [_], _ => rfl
  | a :: b :: l, s => by
    have ih := lengthLoop_rotate v1 v2 o h1 h2 (b :: l)
    simp only [rotatePoints_map, List.map_cons, lengthLoop] at ih ⊢
    rw [ih]
    congr 2
    unfold pointDist distSq
    rw [rotate_normSq v1 v2 o h1 h2]

end Geometrix
