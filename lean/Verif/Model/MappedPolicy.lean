import Verif.Model.Policy

/-!
# Comparison policies by type

`mapped_tolerance_comparison_policy` of `geometrix/numeric/number_comparison_policy.hpp:554-714`. The policy with which two numbers are
compared is chosen by the type of the first one.

Simplification: all numbers are elements of one field `K`, their C++ type is given beside them; conversions between the fundamental types
are exact.
-/

namespace Geometrix

/-- The type of a number: a fundamental type, or a quantity of a unit with the numbers of a fundamental type. Unit 0 is dimensionless. -/
inductive NumTy where
  | plain (t : Nat)
  | quantity (unit t : Nat)
  deriving DecidableEq

/-- `detail::are_comparable`: lines 611-632. -/
def areComparable : NumTy → NumTy → Bool
  | .plain _, .plain _ => true
  | .quantity u _, .quantity v _ => decide (u = v)
  | .quantity u _, .plain _ => decide (u = 0)
  | .plain _, .quantity v _ => decide (v = 0)

section
variable {K : Type*}

/-- `mapped_tolerance_comparison_policy`: the members `m_default` and `m_policy_map`, lines 706-707. A `boost::fusion::map` with two
entries for one type does not compile; here the first one counts. -/
structure MappedPolicy (K : Type*) where
  dflt : Cmp K
  entries : List (NumTy × Cmp K)

/-- The entry for a type. -/
def findPolicy (t : NumTy) : List (NumTy × Cmp K) → Option (Cmp K)
  | [] => none
  | (k, c) :: rest => if k = t then some c else findPolicy t rest

/-- `detail::policy_resolver`: lines 555-575. -/
def resolvePolicy (m : MappedPolicy K) (t : NumTy) : Cmp K :=
  match findPolicy t m.entries with
  | some c => c
  | none => m.dflt

/-- The constructor with one tolerance: lines 653-661. Every policy is made with this tolerance; `make` are the constructors of the
policies. -/
def mappedOfTolerance (tol : K) (make : K → Cmp K) (entries : List (NumTy × (K → Cmp K))) : MappedPolicy K :=
  ⟨make tol, entries.map fun e => (e.1, e.2 tol)⟩

/-- A number with its type. -/
structure TypedNum (K : Type*) where
  ty : NumTy
  value : K

/-- `equals`: lines 668-673; `none` if it does not compile. -/
def mappedEquals (m : MappedPolicy K) (u v : TypedNum K) : Option Bool :=
  if areComparable u.ty v.ty then some ((resolvePolicy m u.ty).equals u.value v.value) else none

/-- `less_than`: lines 675-680. -/
def mappedLt (m : MappedPolicy K) (u v : TypedNum K) : Option Bool :=
  if areComparable u.ty v.ty then some ((resolvePolicy m u.ty).lt u.value v.value) else none

/-- `less_than_or_equal`: lines 682-687. -/
def mappedLe (m : MappedPolicy K) (u v : TypedNum K) : Option Bool :=
  if areComparable u.ty v.ty then some ((resolvePolicy m u.ty).le u.value v.value) else none

/-- `greater_than`: lines 689-694. -/
def mappedGt (m : MappedPolicy K) (u v : TypedNum K) : Option Bool :=
  if areComparable u.ty v.ty then some ((resolvePolicy m u.ty).gt u.value v.value) else none

/-- `greater_than_or_equal`: lines 696-701. -/
def mappedGe (m : MappedPolicy K) (u v : TypedNum K) : Option Bool :=
  if areComparable u.ty v.ty then some ((resolvePolicy m u.ty).ge u.value v.value) else none

end

end Geometrix
