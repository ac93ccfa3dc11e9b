import Verif.Model.TaggedQuantity

/-!
# Quantities with names
-/

namespace Geometrix.Spec

open Geometrix

variable {K : Type*}

section
variable [Field K] [DecidableEq K]

/-- The number that an expression gives if all names are forgotten, `none` if there is a division by zero. -/
def plainValue (F : Nat → K → K) (G : Nat → K → K → K) : TqExpr K → Option K
  | .number x => some x
  | .quantity _ x => some x
  | .op o a b => (plainValue F G a).bind fun x => (plainValue F G b).bind fun y => match o with
    | .add => some (x + y)
    | .sub => some (x - y)
    | .mul => some (x * y)
    | .div => if y = 0 then none else some (x / y)
  | .neg a => (plainValue F G a).map fun x => -x
  | .fn f a => (plainValue F G a).map (F f)
  | .fn2 f a b => (plainValue F G a).bind fun x => (plainValue F G b).map (G f x)

end

/-- The names of the quantities in an expression. -/
def names : TqExpr K → List Nat
  | .number _ => []
  | .quantity n _ => [n]
  | .op _ a b => names a ++ names b
  | .neg a => names a
  | .fn _ a => names a
  | .fn2 _ a b => names a ++ names b

/-- No function is applied to an expression with names. -/
def NoFunction : TqExpr K → Prop
  | .number _ => True
  | .quantity _ _ => True
  | .op _ a b => NoFunction a ∧ NoFunction b
  | .neg a => NoFunction a
  | .fn _ a => names a = []
  | .fn2 _ a b => names a = [] ∧ names b = []

end Geometrix.Spec
