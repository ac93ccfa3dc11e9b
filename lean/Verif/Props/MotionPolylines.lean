import Verif.Lemmas.MotionPolylines
import Verif.Props.MotionSegments

/-!
# C152: moving polylines moves what is made of them
-/

set_option linter.unusedSectionVars false

namespace Geometrix

open Spec

variable {K : Type*} [Field K] [LinearOrder K] [IsStrictOrderedRing K]

/-- C152: cleaning a polyline or polygon and mapping it by an invertible affine map can be exchanged; the same vertices are
identified as collinear or repeated. -/
theorem C152_clean (a b c d e g : K) (h : a * d - b * c ≠ 0) (l : List (P2 K)) :
    cleanPolyline Cmp.direct (l.map (affineMap a b c d e g)) = (cleanPolyline Cmp.direct l).map (affineMap a b c d e g) ∧
    cleanPolygon Cmp.direct (l.map (affineMap a b c d e g)) = (cleanPolygon Cmp.direct l).map (affineMap a b c d e g) ∧
    identifyCollinear Cmp.direct (l.map (affineMap a b c d e g)) = identifyCollinear Cmp.direct l ∧
    identifyAdjacent Cmp.direct (l.map (affineMap a b c d e g)) = identifyAdjacent Cmp.direct l := by
  have hf : KeepsLines (affineMap a b c d e g) := keepsLines_affine h
  refine ⟨?_, ?_, identifyCollinear_map hf l, identifyAdjacent_map hf l⟩
  · rw [cleanPolyline, removeCollinearPolyline_map hf, coalescePolyline_map hf, cleanPolyline]
  · rw [cleanPolygon, removeCollinearPolygon_map hf, coalescePolygon_map hf, cleanPolygon]

example : cleanPolygon Cmp.direct [(⟨0, 0⟩ : P2 ℚ), ⟨1, 0⟩, ⟨2, 0⟩, ⟨2, 2⟩, ⟨2, 2⟩, ⟨0, 2⟩] = [⟨0, 0⟩, ⟨2, 0⟩, ⟨2, 2⟩, ⟨0, 2⟩] ∧
    cleanPolygon Cmp.direct ([(⟨0, 0⟩ : P2 ℚ), ⟨1, 0⟩, ⟨2, 0⟩, ⟨2, 2⟩, ⟨2, 2⟩, ⟨0, 2⟩].map (affineMap 2 1 0 3 5 7)) =
      [⟨5, 7⟩, ⟨9, 7⟩, ⟨11, 13⟩, ⟨7, 13⟩] := by decide +kernel

/-- C152: `ramer_douglas_peucker_algorithm` keeps the same vertices of a rotated polyline, and fails for it exactly if it fails for
the polyline. -/
theorem C152_simplify (v1 v2 o : P2 ℝ) (h1 : v1.x ^ 2 + v1.y ^ 2 = 1) (h2 : v2.x ^ 2 + v2.y ^ 2 = 1) (checked : Bool) (l : List (P2 ℝ)) (eps : ℝ) :
    ramerDouglasPeucker checked (rotatePoints l v1 v2 o) eps = (ramerDouglasPeucker checked l eps).map (fun m => rotatePoints m v1 v2 o) := by
  unfold ramerDouglasPeucker
  have hl : (rotatePoints l v1 v2 o).length = l.length := by rw [rotatePoints_map, List.length_map]
  rw [hl, rdp_rotate v1 v2 o h1 h2]

/-- C152: the length of a polyline is unchanged by rotations. -/
theorem C152_length (v1 v2 o : P2 ℝ) (h1 : v1.x ^ 2 + v1.y ^ 2 = 1) (h2 : v2.x ^ 2 + v2.y ^ 2 = 1) (l : List (P2 ℝ)) :
    polylineLength (rotatePoints l v1 v2 o) = polylineLength l := lengthLoop_rotate v1 v2 o h1 h2 l 0

/-- C152: `point_polyline_orientation` and `is_point_concave` answer the same after a rotation. -/
theorem C152_side (v1 v2 o : P2 K) (h1 : v1.x ^ 2 + v1.y ^ 2 = 1) (h2 : v2.x ^ 2 + v2.y ^ 2 = 1) (p : P2 K) (l : List (P2 K)) :
    polylineSide Cmp.direct (rotatePoint p v1 v2 o) (rotatePoints l v1 v2 o) = polylineSide Cmp.direct p l ∧
    ∀ i, isPointConcave (rotatePoints l v1 v2 o) i = isPointConcave l i := by
  have hl : (rotatePoints l v1 v2 o).length = l.length := by rw [rotatePoints_map, List.length_map]
  have hg : ∀ i : Nat, (rotatePoints l v1 v2 o)[i]? = l[i]?.map fun x => rotatePoint x v1 v2 o := by
    intro i; rw [rotatePoints_map, List.getElem?_map]
  have ho := C152_orientation v1 v2 o h1 h2
  have hv : ∀ U V W E F p : P2 K, vertexSide Cmp.direct (rotatePoint U v1 v2 o) (rotatePoint V v1 v2 o) (rotatePoint W v1 v2 o) (rotatePoint E v1 v2 o)
      (rotatePoint F v1 v2 o) (rotatePoint p v1 v2 o) = vertexSide Cmp.direct U V W E F p := by
    intro U V W E F p
    unfold vertexSide
    simp only [ho, isVectorBetween_rotate v1 v2 o h1 h2]
  have hat : ∀ m i, polylineSideAt Cmp.direct (rotatePoint p v1 v2 o) (rotatePoints l v1 v2 o) m i = polylineSideAt Cmp.direct p l m i := by
    intro m i
    unfold polylineSideAt
    simp only [hl, hg]
    cases l[i]? with
    | none => rfl
    | some A =>
      cases l[i + 1]? with
      | none => rfl
      | some B =>
        simp only [Option.map_some, (C152_point_segment v1 v2 o h1 h2 p A B).2.2.1]
        rcases pointSegClosestParam p A B with e | ⟨x, t⟩
        · rfl
        · simp only [Except.map, ho]
          cases l[i - 1]? with
          | none =>
            cases l[i + 2]? with
            | none => rfl
            | some C => simp only [Option.map_some, Option.map_none, hv]
          | some H =>
            cases l[i + 2]? with
            | none => simp only [Option.map_some, Option.map_none, hv]
            | some C => simp only [Option.map_some, hv]
  constructor
  · unfold polylineSide
    have hid : ∀ r : Res K, r = r.map id := by rintro (_ | _) <;> rfl
    have h := minLoop_map (Prod.map id (Prod.map (fun p => rotatePoint p v1 v2 o) (fun p => rotatePoint p v1 v2 o))) id
      (fun e : Nat × P2 K × P2 K => pointSegDistSq p e.2.1 e.2.2)
      (fun e : Nat × P2 K × P2 K => pointSegDistSq (rotatePoint p v1 v2 o) e.2.1 e.2.2) id id
      (fun x => ((C152_point_segment v1 v2 o h1 h2 p x.2.1 x.2.2).2.2.2).trans (hid _)) (fun _ => rfl) (openEdgesIdx l) none
    rw [← openEdgesIdx_map, ← rotatePoints_map, Option.map_none] at h
    rw [hl, h]
    split_ifs
    · rfl
    · rcases minLoop (fun e : Nat × P2 K × P2 K => pointSegDistSq p e.2.1 e.2.2) id (openEdgesIdx l) none with e | (_ | ⟨x, v⟩)
      · rfl
      · rfl
      · exact hat v x.1
  · intro i
    unfold isPointConcave
    rw [hl, hg, hg, hg]
    cases l[i]? with
    | none => rfl
    | some p =>
      cases l[prevIndex l.length i]? with
      | none => rfl
      | some q =>
        cases l[nextIndex l.length i]? with
        | none => rfl
        | some r => simp only [Option.map_some, rotate_cross v1 v2 o h1 h2]

example : ∃ v1 v2 : P2 ℝ, v1 ≠ v2 ∧ v1.x ^ 2 + v1.y ^ 2 = 1 ∧ v2.x ^ 2 + v2.y ^ 2 = 1 :=
  ⟨⟨3 / 5, 4 / 5⟩, ⟨0, 1⟩, by simp, by norm_num, by norm_num⟩

end Geometrix
