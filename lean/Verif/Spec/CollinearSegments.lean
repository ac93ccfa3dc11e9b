import Verif.Spec.Geometry
import Verif.Spec.Lexicographic

/-!
# Sets of collinear segments
-/

namespace Geometrix

namespace Spec
end Spec

open Spec

variable {K : Type*} [Field K] [LinearOrder K]

/-- Some segment of the set contains the point. -/
def Spec.Covers (S : List (Seg K)) (p : P2 K) : Prop := ∃ s ∈ S, OnSegment s.s s.e p

/-- All ends of the segments are on one line, through `o` in direction `v`. -/
def Spec.AllOnLine (o v : P2 K) (S : List (Seg K)) : Prop :=
  v ≠ 0 ∧ ∀ s ∈ S, (∃ a : K, s.s = o + a • v) ∧ ∃ b : K, s.e = o + b • v

/-- The segments all have positive length, are listed in lexicographic order and do not touch: the upper end of
an earlier one is below the lower end of a later one. -/
def Spec.SeparateSegments (S : List (Seg K)) : Prop :=
  (∀ s ∈ S, s.s ≠ s.e) ∧ S.Pairwise (fun a b => ∃ u l, IsUpper a u ∧ IsLower b l ∧ LexLT u l)

end Geometrix
