import Verif.Lemmas.AffineMaps
import Verif.Lemmas.Between
import Verif.Lemmas.OrientedIntersection
import Verif.Model.SegmentIntersection
import Verif.Model.PolylineDistance

/-!
# Helper lemmas: segments under affine maps and rotations
-/

set_option linter.unusedSectionVars false

namespace Geometrix

open Spec

variable {K : Type*} [Field K] [LinearOrder K] [IsStrictOrderedRing K]

theorem cdiv_scale {k : K} (hk : k ≠ 0) (x y : K) : cdiv (k * x) (k * y) = cdiv x y := by
  unfold cdiv
  by_cases hy : y = 0
  · simp [hy]
  · rw [if_neg (mul_ne_zero hk hy), if_neg hy, mul_div_mul_left _ _ hk]

theorem xDenom_affine (a b c d e g : K) (A B C D : P2 K) :
    xDenom (affineMap a b c d e g A) (affineMap a b c d e g B) (affineMap a b c d e g C) (affineMap a b c d e g D) =
      (a * d - b * c) * xDenom A B C D := by simp only [xDenom, affineMap]; ring

theorem xNumS_affine (a b c d e g : K) (A C D : P2 K) :
    xNumS (affineMap a b c d e g A) (affineMap a b c d e g C) (affineMap a b c d e g D) =
      (a * d - b * c) * xNumS A C D := by simp only [xNumS, affineMap]; ring

theorem xNumT_affine (a b c d e g : K) (A B C : P2 K) :
    xNumT (affineMap a b c d e g A) (affineMap a b c d e g B) (affineMap a b c d e g C) =
      (a * d - b * c) * xNumT A B C := by simp only [xNumT, affineMap]; ring

theorem affine_param (a b c d e g s : K) (A B : P2 K) :
    affineMap a b c d e g (A + s • (B - A)) =
      affineMap a b c d e g A + s • (affineMap a b c d e g B - affineMap a b c d e g A) := by
  ext
  · simp only [affineMap, P2.add_x, P2.add_y, P2.sub_x, P2.sub_y, P2.smul_x, P2.smul_y]; ring
  · simp only [affineMap, P2.add_x, P2.add_y, P2.sub_x, P2.sub_y, P2.smul_x, P2.smul_y]; ring

theorem direct_equals_scale {k : K} (hk : k ≠ 0) (x y : K) :
    (Cmp.direct : Cmp K).equals (k * x) (k * y) = (Cmp.direct : Cmp K).equals x y := by
  rw [Bool.eq_iff_iff, direct_equals, direct_equals, mul_right_inj' hk]

theorem direct_equals_scale_zero {k : K} (hk : k ≠ 0) (x : K) :
    (Cmp.direct : Cmp K).equals (k * x) 0 = (Cmp.direct : Cmp K).equals x 0 := by
  have := direct_equals_scale hk x 0
  rwa [mul_zero] at this

theorem isCollinear_affine {a b c d e g : K} (h : a * d - b * c ≠ 0) (A B C : P2 K) :
    isCollinear Cmp.direct (affineMap a b c d e g A) (affineMap a b c d e g B) (affineMap a b c d e g C) =
      isCollinear Cmp.direct A B C := by
  unfold isCollinear
  rw [← direct_equals_scale_zero h (cross (B - A) (C - A))]
  congr 1
  simp only [cross, affineMap, P2.sub_x, P2.sub_y]; ring

theorem isBetween_affine {a b c d e g : K} (h : a * d - b * c ≠ 0) {A B : P2 K} (hAB : A ≠ B) (C : P2 K) :
    isBetween Cmp.direct (affineMap a b c d e g A) (affineMap a b c d e g B) (affineMap a b c d e g C) true =
      isBetween Cmp.direct A B C true := by
  rw [Bool.eq_iff_iff, isBetween_iff_onSegment hAB, isBetween_iff_onSegment ((affine_injective h).ne hAB), onSegment_affine_iff h]

theorem seqEquals_affine {a b c d e g : K} (h : a * d - b * c ≠ 0) (A B : P2 K) :
    seqEquals Cmp.direct (affineMap a b c d e g A) (affineMap a b c d e g B) = seqEquals Cmp.direct A B := by
  rw [Bool.eq_iff_iff, seqEquals_direct, seqEquals_direct, (affine_injective h).eq_iff]

theorem parallel_affine {a b c d e g : K} (h : a * d - b * c ≠ 0) {A B C D : P2 K} (hAB : A ≠ B) (hCD : C ≠ D) :
    parallelIntersection Cmp.direct (affineMap a b c d e g A) (affineMap a b c d e g B) (affineMap a b c d e g C) (affineMap a b c d e g D) =
      ((parallelIntersection Cmp.direct A B C D).1, (parallelIntersection Cmp.direct A B C D).2.map (affineMap a b c d e g)) := by
  unfold parallelIntersection
  rw [isCollinear_affine h, isBetween_affine h hAB, isBetween_affine h hAB, isBetween_affine h hCD, isBetween_affine h hCD,
    seqEquals_affine h, seqEquals_affine h, seqEquals_affine h, seqEquals_affine h]
  generalize isCollinear Cmp.direct A B C = b0
  generalize isBetween Cmp.direct A B C true = b1
  generalize isBetween Cmp.direct A B D true = b2
  generalize isBetween Cmp.direct C D A true = b3
  generalize isBetween Cmp.direct C D B true = b4
  generalize seqEquals Cmp.direct A C = b5
  generalize seqEquals Cmp.direct B D = b6
  generalize seqEquals Cmp.direct A D = b7
  generalize seqEquals Cmp.direct B C = b8
  cases b0
  · rfl
  cases b1 <;> cases b2 <;> try rfl
  all_goals cases b3 <;> cases b4 <;> try rfl
  all_goals cases b5 <;> cases b6 <;> try rfl
  all_goals cases b7 <;> cases b8 <;> rfl

theorem rotate_dot (v1 v2 o : P2 K) (h1 : v1.x ^ 2 + v1.y ^ 2 = 1) (h2 : v2.x ^ 2 + v2.y ^ 2 = 1) (p q r s : P2 K) :
    dot (rotatePoint p v1 v2 o - rotatePoint q v1 v2 o) (rotatePoint r v1 v2 o - rotatePoint s v1 v2 o) = dot (p - q) (r - s) := by
  have hd := rotate_det h1 h2
  rw [rotatePoint_affine, rotatePoint_affine, rotatePoint_affine, rotatePoint_affine]
  generalize dot v1 v2 = m at *
  generalize cross v1 v2 = n at *
  have : dot (p - q) (r - s) = (m * m - -n * n) * dot (p - q) (r - s) := by rw [hd, one_mul]
  rw [this]
  simp only [dot, affineMap, P2.sub_x, P2.sub_y]
  ring

theorem rotate_param (v1 v2 o : P2 K) (s : K) (A B : P2 K) :
    rotatePoint (A + s • (B - A)) v1 v2 o = rotatePoint A v1 v2 o + s • (rotatePoint B v1 v2 o - rotatePoint A v1 v2 o) := by
  simp only [rotatePoint_affine]
  exact affine_param _ _ _ _ _ _ _ _ _

theorem rotate_area2 (v1 v2 o : P2 K) (h1 : v1.x ^ 2 + v1.y ^ 2 = 1) (h2 : v2.x ^ 2 + v2.y ^ 2 = 1) (A B C : P2 K) :
    cross (rotatePoint B v1 v2 o - rotatePoint A v1 v2 o) (rotatePoint C v1 v2 o - rotatePoint A v1 v2 o) = cross (B - A) (C - A) := by
  have hd := rotate_det h1 h2
  simp only [rotatePoint_affine]
  generalize dot v1 v2 = m at *
  generalize cross v1 v2 = n at *
  have : cross (B - A) (C - A) = (m * m - -n * n) * cross (B - A) (C - A) := by rw [hd, one_mul]
  rw [this]
  simp only [cross, affineMap, P2.sub_x, P2.sub_y]
  ring

theorem minLoop_map {α α' β β' : Type*} (g : α → α') (k : β → β') (f : α → Res β) (f' : α' → Res β') (key : β → K) (key' : β' → K)
    (hf : ∀ x, f' (g x) = (f x).map k) (hk : ∀ b, key' (k b) = key b) (l : List α) :
    ∀ best : Option (α × β), minLoop f' key' (l.map g) (best.map (Prod.map g k)) = (minLoop f key l best).map (Option.map (Prod.map g k)) := by
  induction l with
  | nil => intro best; rfl
  | cons x xs ih =>
    intro best
    simp only [List.map_cons, minLoop, hf]
    cases f x with
    | error e => rfl
    | ok v =>
      cases best with
      | none => exact ih (some (x, v))
      | some yw =>
        obtain ⟨y, w⟩ := yw
        simp only [Option.map_some, Prod.map_apply, Except.map, hk]
        split_ifs
        · exact ih (some (x, v))
        · exact ih (some (y, w))

theorem minLoopInf_map {α α' β β' : Type*} (g : α → α') (k : β → β') (f : α → Res (Option β)) (f' : α' → Res (Option β')) (key : β → K) (key' : β' → K)
    (hf : ∀ x, f' (g x) = (f x).map (Option.map k)) (hk : ∀ b, key' (k b) = key b) (l : List α) :
    ∀ best : Option (α × β), minLoopInf f' key' (l.map g) (best.map (Prod.map g k)) = (minLoopInf f key l best).map (Option.map (Prod.map g k)) := by
  induction l with
  | nil => intro best; rfl
  | cons x xs ih =>
    intro best
    simp only [List.map_cons, minLoopInf, hf]
    rcases f x with e | (_ | v)
    · rfl
    · exact ih best
    · cases best with
      | none => exact ih (some (x, v))
      | some yw =>
        obtain ⟨y, w⟩ := yw
        simp only [Option.map_some, Prod.map_apply, Except.map, hk]
        split_ifs
        · exact ih (some (x, v))
        · exact ih (some (y, w))

theorem minLoopValue_map {α α' : Type*} (g : α → α') (f : α → Res K) (f' : α' → Res K) (hf : ∀ x, f' (g x) = f x) (l : List α) :
    minLoopValue f' (l.map g) = minLoopValue f l := by
  have h := minLoop_map g id f f' id id (by intro x; rw [hf]; cases f x <;> rfl) (fun _ => rfl) l none
  simp only [Option.map_none] at h
  unfold minLoopValue
  rw [h]
  rcases minLoop f id l none with e | (_ | ⟨x, v⟩) <;> rfl

theorem openEdges_pairMap {α β : Type*} (g : α → β) : ∀ l : List α, openEdges (l.map g) = (openEdges l).map (Prod.map g g)
  | [] => rfl
  | [_] => rfl
  | a :: b :: l => by
    have := openEdges_pairMap g (b :: l)
    simp only [List.map_cons, openEdges] at this ⊢
    rw [this]; rfl

theorem closedEdges_pairMap {α β : Type*} (g : α → β) (l : List α) : closedEdges (l.map g) = (closedEdges l).map (Prod.map g g) := by
  unfold closedEdges
  rw [List.getLast?_map]
  cases l.getLast? with
  | none => rfl
  | some z => exact openEdges_pairMap g (z :: l)

theorem openEdgesIdx_map (g : P2 K → P2 K) (l : List (P2 K)) :
    openEdgesIdx (l.map g) = (openEdgesIdx l).map (Prod.map id (Prod.map g g)) := by
  unfold openEdgesIdx
  rw [openEdges_pairMap, List.zipIdx_map, List.map_map, List.map_map]
  rfl

theorem closedEdgesIdx_map (g : P2 K → P2 K) (l : List (P2 K)) :
    closedEdgesIdx (l.map g) = (closedEdgesIdx l).map (Prod.map id (Prod.map g g)) := by
  unfold closedEdgesIdx
  rw [closedEdges_pairMap, List.zipIdx_map, List.map_map, List.map_map, List.length_map]
  rfl

theorem rotatePoints_map (poly : List (P2 K)) (v1 v2 o : P2 K) : rotatePoints poly v1 v2 o = poly.map fun p => rotatePoint p v1 v2 o := rfl

end Geometrix
