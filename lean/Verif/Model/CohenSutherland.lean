import Verif.Model.Box

/-!
# Cohen–Sutherland clipping
-/

namespace Geometrix

variable {K : Type*} [Field K] [LinearOrder K]

/-- `out_classification`: `geometrix/algorithm/cohen_sutherland_line_clipping.hpp:19-59`, one Boolean
per bit. -/
structure OutCode where
  left : Bool
  right : Bool
  bottom : Bool
  top : Bool
  deriving DecidableEq, Repr

/-- The conversion to a condition: some bit is set. -/
def OutCode.any (c : OutCode) : Bool := c.left || c.right || c.bottom || c.top

/-- `c0 & c1` as a condition. -/
def OutCode.meets (c d : OutCode) : Bool :=
  (c.left && d.left) || (c.right && d.right) || (c.bottom && d.bottom) || (c.top && d.top)

/-- `compute_out_classification`: `cohen_sutherland_line_clipping.hpp:63-83`. The rectangle is given
as a box. -/
def outCode (cmp : Cmp K) (b : Box K) (p : P2 K) : OutCode :=
  ⟨cmp.lt p.x b.lo.x, !cmp.lt p.x b.lo.x && cmp.gt p.x b.hi.x,
   cmp.lt p.y b.lo.y, !cmp.lt p.y b.lo.y && cmp.gt p.y b.hi.y⟩

/-- The new point: `cohen_sutherland_line_clipping.hpp:116-147`. -/
def clipPoint (b : Box K) (out : OutCode) (p0 p1 : P2 K) : Res (P2 K) :=
  if out.top then
    match cdiv ((p1.x - p0.x) * (b.hi.y - p0.y)) (p1.y - p0.y) with
    | .error e => .error e
    | .ok q => .ok ⟨p0.x + q, b.hi.y⟩
  else if out.bottom then
    match cdiv ((p1.x - p0.x) * (b.lo.y - p0.y)) (p1.y - p0.y) with
    | .error e => .error e
    | .ok q => .ok ⟨p0.x + q, b.lo.y⟩
  else if out.right then
    match cdiv ((p1.y - p0.y) * (b.hi.x - p0.x)) (p1.x - p0.x) with
    | .error e => .error e
    | .ok q => .ok ⟨b.hi.x, p0.y + q⟩
  else if out.left then
    match cdiv ((p1.y - p0.y) * (b.lo.x - p0.x)) (p1.x - p0.x) with
    | .error e => .error e
    | .ok q => .ok ⟨b.lo.x, p0.y + q⟩
  else .ok 0

/-- The loop: `cohen_sutherland_line_clipping.hpp:99-163`: the returned value and the points written
back. The codes are always the ones of the current points, so they are computed from them. The first
argument bounds the number of iterations; to run out of it is `diverges`. -/
def clipLoop (cmp : Cmp K) (b : Box K) : Nat → P2 K → P2 K → Res (Bool × P2 K × P2 K)
  | 0, _, _ => .error .diverges
  | fuel + 1, p0, p1 =>
    let c0 := outCode cmp b p0
    let c1 := outCode cmp b p1
    if !(c0.any || c1.any) then .ok (true, p0, p1)
    else if c0.meets c1 then .ok (false, p0, p1)
    else
      let out := if c0.any then c0 else c1
      match clipPoint b out p0 p1 with
      | .error e => .error e
      | .ok p => if out = c0 then clipLoop cmp b fuel p p1 else clipLoop cmp b fuel p0 p

/-- `cohen_sutherland_line_clip`: `cohen_sutherland_line_clipping.hpp:89-167`. -/
def cohenSutherland (cmp : Cmp K) (b : Box K) (p0 p1 : P2 K) : Res (Bool × P2 K × P2 K) :=
  clipLoop cmp b 6 p0 p1

end Geometrix
