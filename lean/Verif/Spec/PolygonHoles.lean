import Verif.Model.PolygonHoles

/-!
# What assembling a polygon with holes means
-/

namespace Geometrix.Spec

/-- The sides of a polygon: each point with the next one, the last one with the first. -/
def sidesOf {α : Type*} (l : List α) : List (α × α) := l.zip (l.rotate 1)

/-- The variable that a call names, and how it is passed. -/
def calledVar : HolesCall → Nat
  | .setOuter _ v => v
  | .addHole _ v => v

def calledHow : HolesCall → Passing
  | .setOuter h _ => h
  | .addHole h _ => h

/-- The outer polygon that the calls should give: the value of the variable of the last `set_outer`. -/
def wantedOuter {α : Type*} (vars : Nat → List α) (start : List α) : List HolesCall → List α
  | [] => start
  | .setOuter _ v :: cs => wantedOuter vars (vars v) cs
  | .addHole _ _ :: cs => wantedOuter vars start cs

/-- The holes that the calls should add: the values of the variables of the calls of `add_hole`, in order. -/
def wantedHoles {α : Type*} (vars : Nat → List α) : List HolesCall → List (List α)
  | [] => []
  | .setOuter _ _ :: cs => wantedHoles vars cs
  | .addHole _ v :: cs => vars v :: wantedHoles vars cs

end Geometrix.Spec
