import Verif.Spec.SolidBsp

/-!
# Borders with the inside to the left, cutting segments, and hiding
-/

namespace Geometrix.Spec

variable {K : Type*} [Field K] [LinearOrder K]

/-- The sides are the border of the set `inside`, which is to the left of each of them. -/
def LeftBorderOf (sides : List (P2 K × P2 K)) (inside : P2 K → Prop) : Prop :=
  BorderOf sides (fun p => ¬inside p)

/-- A side whose line goes through `p` contains `p`. -/
def OnlyOwnLines (sides : List (P2 K × P2 K)) (p : P2 K) : Prop :=
  ∀ s ∈ sides, area2 s.1 s.2 p = 0 → OnSegment s.1 s.2 p

/-- The segments `m` arise from the segments `l` by cutting some of them, each time at a point strictly
inside; the order of the segments does not matter. -/
inductive CutInto : List (P2 K × P2 K) → List (P2 K × P2 K) → Prop where
  | done {l m} (h : l.Perm m) : CutInto l m
  | cut {l m a b x rest} (h : l.Perm ((a, b) :: rest)) (hx : InsideSegment a b x)
      (next : CutInto ((a, x) :: (x, b) :: rest) m) : CutInto l m

/-- Seen from `v`, the point `x` is in front of the point `y`: it is on the way from `v` to `y`, before
`y`. -/
def InFrontOf (v x y : P2 K) : Prop := ∃ t : K, 0 < t ∧ t < 1 ∧ x = v + t • (y - v)

/-- The number of the other segments which the line through the segment at position `i` cuts: which have ends
strictly to both sides of it. -/
def cutCount (l : List (P2 K × P2 K)) (i : Nat) (s : P2 K × P2 K) : Nat :=
  (l.eraseIdx i).countP fun e => decide (area2 s.1 s.2 e.1 * area2 s.1 s.2 e.2 < 0)

/-- The number of the other segments to the left of the line through the segment at position `i`, not
counting cut ones, but counting those on the line. -/
def leftCount (l : List (P2 K × P2 K)) (i : Nat) (s : P2 K × P2 K) : Nat :=
  (l.eraseIdx i).countP fun e => decide (0 ≤ area2 s.1 s.2 e.1 ∧ 0 ≤ area2 s.1 s.2 e.2)

/-- The number of the other segments to the right of the line through the segment at position `i`, not
counting cut ones. -/
def rightCount (l : List (P2 K × P2 K)) (i : Nat) (s : P2 K × P2 K) : Nat :=
  (l.eraseIdx i).countP fun e => decide (area2 s.1 s.2 e.1 ≤ 0 ∧ area2 s.1 s.2 e.2 ≤ 0 ∧
    (area2 s.1 s.2 e.1 < 0 ∨ area2 s.1 s.2 e.2 < 0))

/-- Five times the weighted sum of 0.8 for the cuts and 0.2 for the lack of balance. -/
def splitScore (l : List (P2 K × P2 K)) (i : Nat) (s : P2 K × P2 K) : Int :=
  4 * (cutCount l i s : Int) + |(leftCount l i s : Int) - (rightCount l i s : Int)|

/-- The score which results when the roles are exchanged: the number of the other segments whose lines cut the
segment at position `i`, those to the left of whose lines it is, and those to the right of whose lines it is. -/
def exchangedScore (l : List (P2 K × P2 K)) (i : Nat) (s : P2 K × P2 K) : Int :=
  4 * ((l.eraseIdx i).countP (fun e => decide (area2 e.1 e.2 s.1 * area2 e.1 e.2 s.2 < 0)) : Int) +
  |((l.eraseIdx i).countP (fun e => decide (0 ≤ area2 e.1 e.2 s.1 ∧ 0 ≤ area2 e.1 e.2 s.2)) : Int) -
    ((l.eraseIdx i).countP (fun e => decide (area2 e.1 e.2 s.1 ≤ 0 ∧ area2 e.1 e.2 s.2 ≤ 0 ∧
      (area2 e.1 e.2 s.1 < 0 ∨ area2 e.1 e.2 s.2 < 0))) : Int)|

/-- The sides of a triangle. -/
def triSides (a b c : P2 K) : List (P2 K × P2 K) := [(a, b), (b, c), (c, a)]

/-- `p` is to the left of the three sides of a triangle. -/
def InTri (a b c p : P2 K) : Prop := 0 < area2 a b p ∧ 0 < area2 b c p ∧ 0 < area2 c a p

end Geometrix.Spec
