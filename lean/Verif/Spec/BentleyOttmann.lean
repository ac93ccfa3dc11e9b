import Verif.Spec.Intersection
import Verif.Spec.Lexicographic

/-!
# What the sweep over segments reports
-/

set_option linter.unusedSectionVars false

namespace Geometrix

open Spec

variable {K : Type*} [Field K] [LinearOrder K]

/-- The segment with the given number goes through the point. -/
def Spec.OnNumber (segs : List (Seg K)) (q : P2 K) (i : Nat) : Prop := ∃ s, segs[i]? = some s ∧ OnSegment s.s s.e q

/-- The point is an end of a segment. -/
def Spec.IsEndOf (segs : List (Seg K)) (q : P2 K) : Prop := ∃ s ∈ segs, q = s.s ∨ q = s.e

/-- Two segments that are not parallel have the point in common. -/
def Spec.IsCrossingOf (segs : List (Seg K)) (q : P2 K) : Prop :=
  ∃ s ∈ segs, ∃ t ∈ segs, ¬ Parallel (s.e - s.s) (t.e - t.s) ∧ OnSegment s.s s.e q ∧ OnSegment t.s t.e q

/-- Two different segments meet in the point, and it is not just in the middle of all segments through it, these on one
line. -/
def Spec.MeetingPoint (segs : List (Seg K)) (q : P2 K) : Prop :=
  (∃ i j, i ≠ j ∧ OnNumber segs q i ∧ OnNumber segs q j) ∧ (IsEndOf segs q ∨ IsCrossingOf segs q)

/-- The calls of the visitor: one for every meeting point, from left to right and from below, each with the numbers of
all segments through the point. -/
structure Spec.SweepCalls (segs : List (Seg K)) (calls : List (P2 K × List Nat)) : Prop where
  order : calls.Pairwise fun a b => LexLT a.1 b.1
  point : ∀ q, (∃ ns, (q, ns) ∈ calls) ↔ MeetingPoint segs q
  numbers : ∀ c ∈ calls, c.2.Pairwise (· < ·) ∧ ∀ i, i ∈ c.2 ↔ OnNumber segs c.1 i

end Geometrix
