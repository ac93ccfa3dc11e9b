import Verif.Spec.Geometry
import Verif.Model.SegmentIntersection

/-!
# What a correct intersection of two segments is
-/

namespace Geometrix

open Spec

variable {K : Type*} [Field K] [LinearOrder K]

/-- `P` is common to the closed segments `AB` and `CD`. -/
def Spec.Common (A B C D P : P2 K) : Prop := OnSegment A B P ∧ OnSegment C D P

/-- Two vectors are parallel: one of them is a multiple of the other. -/
def Spec.Parallel (u v : P2 K) : Prop := (∃ r : K, v = r • u) ∨ (∃ r : K, u = r • v)

/-- What a correct answer `(type, points)` for two segments is. -/
structure Spec.CorrectAnswer (A B C D : P2 K) (r : IType) (pts : List (P2 K)) : Prop where
  /-- no crossing is reported exactly for disjoint segments -/
  nonCrossing : r = .nonCrossing ↔ ¬ ∃ P, Common A B C D P
  /-- a crossing is a single common point inside both segments -/
  crossing : r = .crossing ↔ ∃ P, InsideSegment A B P ∧ InsideSegment C D P ∧
    ∀ Q, Common A B C D Q → Q = P
  /-- an endpoint is reported exactly for non parallel segments that meet in an endpoint of one -/
  endpoint : r = .endpoint ↔ (¬ Parallel (B - A) (D - C) ∧
    ∃ P, Common A B C D P ∧ (P = A ∨ P = B ∨ P = C ∨ P = D))
  /-- overlapping is reported exactly for collinear segments that share a point -/
  overlapping : r = .overlapping ↔ (OnLine A B C ∧ OnLine A B D ∧ ∃ P, Common A B C D P)
  /-- a reported single point is the only common point -/
  point : (r = .crossing ∨ r = .endpoint) → ∃ P, pts = [P] ∧ ∀ Q, Common A B C D Q ↔ Q = P
  /-- two reported points delimit the common part -/
  part : r = .overlapping → ∃ P Q, pts = [P, Q] ∧ ∀ X, Common A B C D X ↔ OnSegment P Q X

/-- What a correct answer for the ray from `O` in direction `v` and the segment `AB` is. -/
structure Spec.CorrectRayAnswer (O v A B : P2 K) (r : IType) (t : Option K) (pts : List (P2 K)) :
    Prop where
  /-- no crossing is reported exactly for disjoint ray and segment -/
  nonCrossing : r = .nonCrossing ↔ ¬ ∃ P, OnRay O v P ∧ OnSegment A B P
  /-- otherwise the parameter is the smallest one at which the ray is on the segment -/
  param : r ≠ .nonCrossing → ∃ t0, t = some t0 ∧ 0 ≤ t0 ∧ OnSegment A B (O + t0 • v) ∧
    ∀ t', 0 ≤ t' → OnSegment A B (O + t' • v) → t0 ≤ t'
  overlapping : r = .overlapping ↔ OnLine A B O ∧ OnLine A B (O + v) ∧
    ∃ P, OnRay O v P ∧ OnSegment A B P
  crossing : r = .crossing ↔ ¬ Parallel v (B - A) ∧ ∃ P, OnRay O v P ∧ InsideSegment A B P
  endpoint : r = .endpoint ↔ ¬ Parallel v (B - A) ∧ (OnRay O v A ∨ OnRay O v B)
  point : (r = .crossing ∨ r = .endpoint) → ∃ P, pts = [P] ∧
    ∀ X, (OnRay O v X ∧ OnSegment A B X) ↔ X = P
  part : r = .overlapping → ∃ P Q, pts = [P, Q] ∧
    ∀ X, (OnRay O v X ∧ OnSegment A B X) ↔ OnSegment P Q X

end Geometrix
