import Verif.Model.Orientation
import Verif.Spec.PointInPolygon

/-!
# Segments linked to polylines and polygons
-/

namespace Geometrix.Spec

/-- The segments are the edges of the polylines and the sides of the polygons; no point occurs twice; no polyline has less
than two points and no polygon is without points. So the polylines cannot be made longer: a segment that ends at the first
point of a polyline, or starts at its last, would be an edge of some sequence, which had the point again. -/
structure Linked {K : Type*} (segs : List (Seg K)) (lines gons : List (List (P2 K))) : Prop where
  edges : ∀ p q, (∃ s ∈ segs, s.s = p ∧ s.e = q) ↔
    (∃ l ∈ lines, (p, q) ∈ l.zip l.tail) ∨ ∃ g ∈ gons, (p, q) ∈ sides g
  nodup : (lines.flatten ++ gons.flatten).Nodup
  long : ∀ l ∈ lines, 2 ≤ l.length
  full : ∀ g ∈ gons, g ≠ []

end Geometrix.Spec
