import Verif.Model.Basic

/-!
# Comparison of tuples and pairs

`geometrix/utility/utilities.hpp:358-369,773-805`.
-/

namespace Geometrix

variable {α β : Type*}

/-- `lexicographical_compare( a1, b1, a2, b2, ... )`: `utilities.hpp:358-369`. `lt i` is the operator `<` of the values at place `i`, the
first being `i`; the pairs are the arguments `( a, b )`. Without arguments it cannot be compiled (`assertFailed` here). -/
def lexVariadic (lt : Nat → α → α → Bool) : Nat → List (α × α) → Res Bool
  | _, [] => .error .assertFailed
  | i, [(a, b)] => .ok (lt i a b)
  | i, (a, b) :: q :: l =>
    if lt i b a then .ok false
    else if lt i a b then .ok true
    else lexVariadic lt (i + 1) (q :: l)

/-- `pair_first_compare::operator()`: `utilities.hpp:780-784`. -/
def pairFirst (c : α → α → Bool) (p q : α × β) : Bool := c p.1 q.1

/-- `pair_second_compare::operator()`: `utilities.hpp:797-801`. -/
def pairSecond (c : β → β → Bool) (p q : α × β) : Bool := c p.2 q.2

end Geometrix
